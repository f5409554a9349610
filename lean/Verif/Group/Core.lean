import Verif.Bucket.VarwidthLemmas
/-!
# `core_group<uint64_t>`, group_chaining.hpp:20-356

A packed array of entries of fixed width.  Only the block type `uint64_t` is modelled, the one used by
`group_chaining_table` (grp:725).  The array is one allocation, `none` is the null pointer; the number of entries and
their width are arguments of the functions.  The copies kept for debugging are left out.  Citations `grp` are to
group_chaining.hpp.
-/
namespace SC

/-- Environment of the group table. -/
structure GrpCfg where
  /-- are accesses to words that are not completely inside the allocation faults? -/
  strict : Bool
  /-- contents of fresh memory -/
  junk : Bits
  /-- is `__BMI2__` defined? -/
  bmi : Bool

/-- packed arrays have blocks of 64 bits -/
abbrev GrpCfg.v (c : GrpCfg) : VarCfg := ⟨64, c.strict, c.junk⟩

theorem GrpCfg.v_good (c : GrpCfg) : c.v.good := by simp [VarCfg.good]

/-- `initialize(width)`, grp:89-101: `malloc` and `memset` with zeros -/
def coreInit (w : Nat) : VarB := some ⟨64 * ceilDiv w 64, fun _ => false⟩

/-- `erase(index, key_width, length)`, grp:103-160: the same moving of 64-bit blocks as in `varwidth_bucket::erase`,
followed by a `realloc` (grp:145-149) whose condition compares in the wrong direction -/
def coreErase (c : GrpCfg) (b : VarB) (idx w len : Nat) : Res VarB := do
  let m ← deref b
  let m ← moveBits c.strict m ⟨((idx + 1) * w) / 64 * 64, ((idx + 1) * w) % 64⟩ ⟨(idx * w) / 64 * 64, (idx * w) % 64⟩
    ((len - idx) * w)
  if len - 1 > 0 ∧ ceilDiv (w * len) 64 < ceilDiv (w * (len - 1)) 64 then
    return some (reallocBits c.junk m (64 * ceilDiv (w * (len - 1)) 64))
  else return some m

/-- `bits_impl<>::move_left(word, offset, len)` (external contract) with `len ≤ 64`.  The address may become
smaller than that of the array, but is not used any more in this case; the model truncates it. -/
def Cursor.moveLeft (c : Cursor) (len : Nat) : Cursor :=
  if c.off < len then ⟨c.base - 64, c.off + 64 - len⟩ else ⟨c.base, c.off - len⟩

/-- the loop of `insert`, grp:211-219: `n` times copy 64 bits, both cursors move to the left -/
def shiftChunks (strict : Bool) (m : Buf) (rd wr : Cursor) : Nat → Res Buf
  | 0 => .ok m
  | n + 1 => do
    let v ← readInt strict m rd.base rd.off 64
    let m ← writeInt strict m wr.base v wr.off 64
    shiftChunks strict m (rd.moveLeft 64) (wr.moveLeft 64) n

/-- `insert(index, key, key_width, length)`, grp:163-247 -/
def coreInsert (c : GrpCfg) (b : VarB) (idx key w len : Nat) : Res VarB := do
  let old := ceilDiv (w * len) 64
  let new := ceilDiv (w * (len + 2)) 64
  -- grp:177-180; `realloc` of a null pointer is `malloc`
  let b := if old < new then
      let m := match b with
        | some m => reallocBits c.junk m (64 * new)
        | none => mallocBits c.junk (64 * new)
      some { m with bits := writeBits m.bits (64 * (new - 1)) 64 0 }
    else b
  let m ← deref b
  let readPos := len * w
  let n := (len - idx) * w / 64
  let m ← (if n > 0 then
      shiftChunks c.strict m ⟨(readPos - 64) / 64 * 64, (readPos - 64) % 64⟩
        ⟨(readPos + w - 64) / 64 * 64, (readPos + w - 64) % 64⟩ n
    else .ok m : Res Buf)
  let readPos := readPos - n * 64
  let m ← (if len > 0 ∧ readPos > idx * w then do
      let rem := (len - idx) * w - n * 64
      let v ← readInt c.strict m ((idx * w) / 64 * 64) ((idx * w) % 64) rem
      writeInt c.strict m (((idx + 1) * w) / 64 * 64) v (((idx + 1) * w) % 64) rem
    else .ok m : Res Buf)
  let m ← writeInt c.strict m ((idx * w) / 64 * 64) key ((idx * w) % 64) w
  return some m

/-- `read(i, key_width)`, grp:250-264 -/
def coreRead (c : GrpCfg) (b : VarB) (i w : Nat) : Res Nat := do
  let m ← deref b
  readInt c.strict m ((i * w) / 64 * 64) ((i * w) % 64) w

/-- `write(index, key, key_width)`, grp:267-293 -/
def coreWrite (c : GrpCfg) (b : VarB) (i x w : Nat) : Res VarB := do
  let m ← deref b
  let m ← writeInt c.strict m ((i * w) / 64 * 64) x ((i * w) % 64) w
  return some m

/-- the loop of `find`, grp:316-324; `n` iterations left -/
def coreScan (strict : Bool) (m : Buf) (key w i : Nat) (cur : Cursor) : Nat → Res Nat
  | 0 => .ok NPOS
  | n + 1 => do
    let (v, cur) ← readIntAndMove strict m cur w
    if v = key then return i
    coreScan strict m key w (i + 1) cur n

/-- `find(position_from, key, position_to, key_width)`, grp:309-327 -/
def coreFind (c : GrpCfg) (b : VarB) (lo key hi w : Nat) : Res Nat := do
  let m ← deref b
  coreScan c.strict m key w lo ⟨(lo * w) / 64 * 64, (lo * w) % 64⟩ (hi - lo)

/-- `serialize(os, width, length)`, grp:51-65 -/
def coreSerialize (b : VarB) (w len : Nat) : Res (List Nat) := do
  let m ← deref b
  guardB true m (64 * ceilDiv (w * len) 64)
  return memBytes m.bits (8 * ceilDiv (w * len) 64)

/-- `deserialize(is, width, length)`, grp:68-86 -/
def coreDeserialize (c : GrpCfg) (w len : Nat) (s : List Nat) : Res (VarB × List Nat) := do
  let (bs, s) ← takeBytes (8 * ceilDiv (w * len) 64) s
  return (some ⟨64 * ceilDiv (w * len) 64, bytesMem c.junk bs⟩, s)

/-! ## Behaviour -/

/-- The array holds the entries `xs`; with `spare`, there is room for another one. -/
def CoreRep (spare : Bool) (b : VarB) (w : Nat) (xs : List Nat) : Prop :=
  ∃ m : Buf, b = some m ∧ 64 ∣ m.alloc ∧ xs.length * w ≤ m.alloc ∧ (spare = true → (xs.length + 1) * w ≤ m.alloc) ∧
    ∀ i (h : i < xs.length), readBits m.bits (i * w) w = xs[i]

theorem CoreRep.weaken {sp : Bool} {b : VarB} {w : Nat} {xs : List Nat} (h : CoreRep sp b w xs) : CoreRep false b w xs := by
  obtain ⟨m, h1, h2, h3, _, h5⟩ := h
  exact ⟨m, h1, h2, h3, by simp, h5⟩

variable {c : GrpCfg} {sp : Bool} {b : VarB} {w : Nat} {xs : List Nat}

theorem coreInit_rep (sp : Bool) (w : Nat) : CoreRep sp (coreInit w) w [] := by
  refine ⟨_, rfl, Nat.dvd_mul_right _ _, by simp, fun _ => ?_, by simp⟩
  have := ceilDiv_mul_ge w (show 0 < 64 by omega)
  simpa using this

theorem acc64 (st : Bool) {alloc pos len : Nat} (hd : 64 ∣ alloc) (hlen : 0 < len)
    (h : pos + len ≤ alloc) : Acc st alloc (pos / 64 * 64) (pos % 64) len :=
  acc_at (c := ⟨64, st, fun _ => false⟩) (by simp [VarCfg.good]) hd hlen h

theorem coreRead_eq (hw : 1 ≤ w) (h : CoreRep sp b w xs) {i : Nat} (hi : i < xs.length) :
    coreRead c b i w = .ok xs[i] := by
  obtain ⟨m, rfl, hd, ha, _, hx⟩ := h
  have := idx_end (w := w) hi
  unfold coreRead deref
  simp only [ok_bind]
  rw [readInt_ok (acc64 _ hd hw (by omega)), pos_split, hx i hi]

theorem coreWrite_eq (hw : 1 ≤ w) (h : CoreRep sp b w xs) {i : Nat} (hi : i < xs.length) (x : Nat) :
    ∃ b', coreWrite c b i x w = .ok b' ∧ CoreRep sp b' w (xs.set i (x % 2 ^ w)) := by
  obtain ⟨m, rfl, hd, ha, hr, hx⟩ := h
  have := idx_end (w := w) hi
  unfold coreWrite deref
  simp only [ok_bind]
  rw [writeInt_ok (acc64 _ hd hw (by omega)), pos_split]
  refine ⟨_, rfl, _, rfl, hd, by simpa using ha, by simpa using hr, ?_⟩
  intro j hj
  rw [List.length_set] at hj
  rw [List.getElem_set]
  by_cases hij : i = j
  · subst hij; rw [if_pos rfl, readBits_write_same]
  · rw [if_neg hij, readBits_write_disjoint _ (entry_disjoint (Ne.symm hij))]
    exact hx j hj

theorem coreScan_eq_var (m : Buf) (key w : Nat) : ∀ (n i : Nat) (cur : Cursor),
    coreScan c.strict m key w i cur n = varScan c.v m key w i cur n := by
  intro n
  induction n with
  | zero => intro i cur; rfl
  | succ n ih => intro i cur; simp only [coreScan, varScan, ih]

/-- `find` looks at the entries `lo, ..., hi-1` -/
theorem coreFind_eq (hw : 1 ≤ w) (hw64 : w ≤ 64) (h : CoreRep sp b w xs) {lo hi : Nat} (hlh : lo < hi)
    (hhi : hi ≤ xs.length) (key : Nat) :
    coreFind c b lo key hi w =
      .ok (if key ∈ (xs.drop lo).take (hi - lo) then lo + ((xs.drop lo).take (hi - lo)).idxOf key else NPOS) := by
  obtain ⟨m, rfl, hd, ha, hr, hx⟩ := h
  unfold coreFind deref
  simp only [ok_bind]
  have hlen : ((xs.drop lo).take (hi - lo)).length = hi - lo := by
    rw [List.length_take, List.length_drop]; omega
  rw [coreScan_eq_var]
  have hmul : lo * w + (hi - lo) * w ≤ xs.length * w := by
    rw [← Nat.add_mul]; exact Nat.mul_le_mul_right _ (by omega)
  have := varScan_eq (c := c.v) (m := m) key hw hw64 ((xs.drop lo).take (hi - lo)) lo
    ⟨(lo * w) / 64 * 64, (lo * w) % 64⟩ (pos_split _ _)
    (fun _ => acc64 _ hd (by rw [hlen]; exact Nat.mul_pos (by omega) hw) (by rw [hlen]; omega))
    (fun j hj => by
      rw [hlen] at hj
      rw [List.getElem_take, List.getElem_drop]
      exact hx (lo + j) (by omega))
  rw [hlen] at this
  exact this

theorem coreErase_eq (hw : 1 ≤ w) (h : CoreRep sp b w xs) (hsp : c.strict = true → sp = true) {i : Nat}
    (hi : i < xs.length) : ∃ b', coreErase c b i w xs.length = .ok b' ∧ CoreRep sp b' w (xs.eraseIdx i) := by
  obtain ⟨m, rfl, hd, ha, hr, hx⟩ := h
  have hroom : c.v.strict = false ∨ (xs.length + 1) * w ≤ m.alloc := by
    cases hs : c.strict with
    | false => exact Or.inl hs
    | true => exact Or.inr (hr (hsp hs))
  have e := varErase_eq (c := c.v) c.v_good (m := m) (pos := i) (len := xs.length) (w := w) hd hw hi hroom
  unfold varErase at e
  unfold coreErase
  simp only [deref, ok_bind] at e ⊢
  have hno : ¬ (xs.length - 1 > 0 ∧ ceilDiv (w * xs.length) 64 < ceilDiv (w * (xs.length - 1)) 64) := by
    rintro ⟨_, h2⟩
    have : ceilDiv (w * (xs.length - 1)) 64 ≤ ceilDiv (w * xs.length) 64 := ceilDiv_mono (Nat.mul_le_mul_left _ (by omega))
    omega
  simp only [if_neg hno]
  refine ⟨_, e, _, rfl, hd, ?_, ?_, ?_⟩
  · rw [List.length_eraseIdx_of_lt hi]
    exact Nat.le_trans (Nat.mul_le_mul_right _ (by omega)) ha
  · intro hs
    rw [List.length_eraseIdx_of_lt hi]
    exact Nat.le_trans (Nat.mul_le_mul_right _ (by omega)) (hr hs)
  · intro j hj
    rw [List.length_eraseIdx_of_lt hi] at hj
    simp only
    rw [read_after_erase hj hi, List.getElem_eraseIdx]
    split
    · exact hx j (by omega)
    · exact hx (j + 1) (by omega)

/-- The loop of `insert` copies its area towards the back. -/
theorem shiftChunks_eq (st : Bool) : ∀ (n : Nat) (m : Buf) (R W : Nat) (rd wr : Cursor), 64 ∣ m.alloc → R ≤ W →
    (0 < n → rd = ⟨(R + (n - 1) * 64) / 64 * 64, (R + (n - 1) * 64) % 64⟩ ∧
      wr = ⟨(W + (n - 1) * 64) / 64 * 64, (W + (n - 1) * 64) % 64⟩ ∧ W + n * 64 ≤ m.alloc) →
    shiftChunks st m rd wr n = .ok { m with bits := copyBits m.bits W R (n * 64) } := by
  intro n
  induction n with
  | zero => intro m R W rd wr _ _ _; simp [shiftChunks, copyBits_zero]
  | succ n ih =>
    intro m R W rd wr hd hle h
    obtain ⟨rfl, rfl, hal⟩ := h (by omega)
    clear h
    have hal' : W + n * 64 ≤ m.alloc := by omega
    simp only [Nat.add_sub_cancel]
    simp only [shiftChunks]
    rw [readInt_ok (acc64 _ hd (by omega) (by omega)), pos_split, ok_bind,
      writeInt_ok (acc64 _ hd (by omega) (by omega)), pos_split, ok_bind, write_read_eq_copy]
    have hmv : ∀ P, (Cursor.moveLeft ⟨(P + n * 64) / 64 * 64, (P + n * 64) % 64⟩ 64) =
        ⟨(P + n * 64) / 64 * 64 - 64, (P + n * 64) % 64⟩ := by
      intro P
      unfold Cursor.moveLeft
      simp only
      rw [if_pos (Nat.mod_lt _ (by omega))]
      simp
    rw [hmv, hmv]
    refine (ih ⟨m.alloc, copyBits m.bits (W + n * 64) (R + n * 64) 64⟩ R W _ _ hd hle ?_).trans ?_
    rotate_left
    · simp only
      rw [copyBits_down _ hle, Nat.succ_mul]
    · intro hn
      obtain ⟨k, rfl⟩ : ∃ k, n = k + 1 := ⟨n - 1, by omega⟩
      simp only [Nat.add_sub_cancel]
      have h1 : ∀ P, (⟨(P + (k + 1) * 64) / 64 * 64 - 64, (P + (k + 1) * 64) % 64⟩ : Cursor) =
          ⟨(P + k * 64) / 64 * 64, (P + k * 64) % 64⟩ := by
        intro P
        have e1 : (P + (k + 1) * 64) / 64 * 64 - 64 = (P + k * 64) / 64 * 64 := by omega
        have e2 : (P + (k + 1) * 64) % 64 = (P + k * 64) % 64 := by omega
        rw [e1, e2]
      exact ⟨h1 R, h1 W, hal'⟩

theorem copyBits_write_read {m : Bits} {w len p i key : Nat} (hp : p ≤ len) (hi : i < len + 1) :
    readBits (writeBits (copyBits m ((p + 1) * w) (p * w) ((len - p) * w)) (p * w) w key) (i * w) w =
      if i < p then readBits m (i * w) w else if i = p then key % 2 ^ w else readBits m ((i - 1) * w) w := by
  by_cases h1 : i < p
  · rw [if_pos h1, readBits_write_disjoint _ (Or.inl (idx_end h1))]
    apply readBits_congr
    intro j hj
    have := idx_end (w := w) h1
    have : p * w ≤ (p + 1) * w := Nat.mul_le_mul_right _ (by omega)
    simp only [copyBits]
    rw [if_neg (by omega)]
  · rw [if_neg h1]
    by_cases h2 : i = p
    · subst h2; rw [if_pos rfl, readBits_write_same]
    · rw [if_neg h2, readBits_write_disjoint _ (Or.inr (idx_end (by omega)))]
      obtain ⟨k, rfl⟩ : ∃ k, i = k + 1 := ⟨i - 1, by omega⟩
      simp only [Nat.add_sub_cancel]
      apply readBits_congr
      intro j hj
      simp only [copyBits]
      have e1 : (k + 1) * w = k * w + w := Nat.succ_mul _ _
      have e2 : (p + 1) * w = p * w + w := Nat.succ_mul _ _
      have e3 : p * w ≤ k * w := Nat.mul_le_mul_right _ (by omega)
      have e4 : k * w + w ≤ len * w := idx_end (by omega)
      have e5 : p * w + (len - p) * w = len * w := by rw [← Nat.add_mul]; congr 1; omega
      rw [if_pos (by omega)]
      congr 1; omega

theorem coreInsert_eq (hw : 1 ≤ w) (h : CoreRep sp b w xs) {idx : Nat} (hi : idx ≤ xs.length) (key : Nat) :
    ∃ b', coreInsert c b idx key w xs.length = .ok b' ∧ CoreRep true b' w (xs.insertIdx idx (key % 2 ^ w)) := by
  obtain ⟨m0, rfl, hd0, ha0, hr0, hx0⟩ := h
  -- the allocation
  obtain ⟨m, hm, hd, ha, hx⟩ : ∃ m : Buf, (if ceilDiv (w * xs.length) 64 < ceilDiv (w * (xs.length + 2)) 64 then
      some { reallocBits c.junk m0 (64 * ceilDiv (w * (xs.length + 2)) 64) with
        bits := writeBits (reallocBits c.junk m0 (64 * ceilDiv (w * (xs.length + 2)) 64)).bits
          (64 * (ceilDiv (w * (xs.length + 2)) 64 - 1)) 64 0 }
      else some m0) = some m ∧ 64 ∣ m.alloc ∧ (xs.length + 2) * w ≤ m.alloc ∧
      ∀ i (h : i < xs.length), readBits m.bits (i * w) w = xs[i] := by
    have hnew : w * (xs.length + 2) ≤ 64 * ceilDiv (w * (xs.length + 2)) 64 := ceilDiv_mul_ge _ (by omega)
    have hold : w * xs.length ≤ 64 * ceilDiv (w * xs.length) 64 := ceilDiv_mul_ge _ (by omega)
    have ec : (xs.length + 2) * w = w * (xs.length + 2) := Nat.mul_comm _ _
    by_cases hlt : ceilDiv (w * xs.length) 64 < ceilDiv (w * (xs.length + 2)) 64
    · rw [if_pos hlt]
      refine ⟨_, rfl, Nat.dvd_mul_right _ _, by rw [ec]; exact hnew, ?_⟩
      intro i hi
      rw [← hx0 i hi]
      apply readBits_congr
      intro j hj
      have := idx_end (w := w) hi
      have e : xs.length * w = w * xs.length := Nat.mul_comm _ _
      simp only [writeBits, reallocBits]
      rw [if_neg (by omega), if_pos (by omega)]
    · rw [if_neg hlt]
      refine ⟨m0, rfl, hd0, ?_, hx0⟩
      have : ceilDiv (w * (xs.length + 2)) 64 ≤ ceilDiv (w * xs.length) 64 := by omega
      have h2 : ceilDiv (w * xs.length) 64 * 64 ≤ m0.alloc := by
        obtain ⟨k, hk⟩ := hd0
        have : ceilDiv (w * xs.length) 64 ≤ k := ceilDiv_le_of (by omega) (by rw [Nat.mul_comm w, ← hk]; exact ha0)
        omega
      omega
  have e2 : (xs.length + 2) * w = xs.length * w + w + w := by rw [Nat.add_mul]; omega
  have eI : (idx + 1) * w = idx * w + w := Nat.succ_mul _ _
  have eL : idx * w + (xs.length - idx) * w = xs.length * w := by rw [← Nat.add_mul]; congr 1; omega
  have hdm := Nat.div_add_mod ((xs.length - idx) * w) 64
  unfold coreInsert
  simp only [hm, deref, ok_bind]
  generalize hN : (xs.length - idx) * w = N at *
  generalize hL : xs.length * w = L at *
  have hrem : N - N / 64 * 64 = N % 64 := by omega
  -- the chunks
  have hchunk : (if N / 64 > 0 then
      shiftChunks c.strict m ⟨(L - 64) / 64 * 64, (L - 64) % 64⟩ ⟨(L + w - 64) / 64 * 64, (L + w - 64) % 64⟩ (N / 64)
      else .ok m) = .ok { m with bits := copyBits m.bits ((idx + 1) * w + N % 64) (idx * w + N % 64) (N / 64 * 64) } := by
    split
    · rename_i hpos
      have h1 : idx * w + N % 64 + (N / 64 - 1) * 64 = L - 64 := by omega
      have h2 : (idx + 1) * w + N % 64 + (N / 64 - 1) * 64 = L + w - 64 := by omega
      exact shiftChunks_eq _ _ m _ _ _ _ hd (by omega) (fun _ => ⟨by rw [h1], by rw [h2], by omega⟩)
    · rename_i hpos
      rw [show N / 64 = 0 by omega, Nat.zero_mul, copyBits_zero]
  rw [hchunk, ok_bind]
  -- the remaining bits
  have hrest : ∀ m1 : Buf, m1.alloc = m.alloc → (if xs.length > 0 ∧ L - N / 64 * 64 > idx * w then (do
      let v ← readInt c.strict m1 ((idx * w) / 64 * 64) ((idx * w) % 64) (N - N / 64 * 64)
      writeInt c.strict m1 (((idx + 1) * w) / 64 * 64) v (((idx + 1) * w) % 64) (N - N / 64 * 64))
      else .ok m1 : Res Buf) = .ok { m1 with bits := copyBits m1.bits ((idx + 1) * w) (idx * w) (N % 64) } := by
    intro m1 hal
    by_cases hr : N % 64 = 0
    · rw [if_neg (by omega), hr, copyBits_zero]
    · have hl0 : 0 < xs.length := by
        rcases Nat.eq_zero_or_pos xs.length with h0 | h0
        · rw [h0, Nat.zero_sub, Nat.zero_mul] at hN; omega
        · exact h0
      rw [if_pos ⟨hl0, by omega⟩, hrem,
        readInt_ok (acc64 _ (by rw [hal]; exact hd) (by omega) (by rw [hal]; omega)), pos_split, ok_bind,
        writeInt_ok (acc64 _ (by rw [hal]; exact hd) (by omega) (by rw [hal]; omega)), pos_split, write_read_eq_copy]
  rw [hrest ⟨m.alloc, copyBits m.bits ((idx + 1) * w + N % 64) (idx * w + N % 64) (N / 64 * 64)⟩ rfl, ok_bind]
  simp only
  rw [copyBits_down _ (by omega : idx * w ≤ (idx + 1) * w), show N % 64 + N / 64 * 64 = N by omega,
    writeInt_ok (b := ⟨m.alloc, copyBits m.bits ((idx + 1) * w) (idx * w) N⟩) (acc64 _ hd hw (by show _ ≤ m.alloc; omega)), pos_split, ok_bind]
  refine ⟨_, rfl, _, rfl, hd, ?_, fun _ => ?_, ?_⟩
  · rw [List.length_insertIdx_of_le_length hi, Nat.succ_mul, hL]; show _ ≤ m.alloc; omega
  · rw [List.length_insertIdx_of_le_length hi, show xs.length + 1 + 1 = xs.length + 2 by omega]; exact ha
  · intro j hj
    rw [List.length_insertIdx_of_le_length hi] at hj
    simp only
    rw [← hN, copyBits_write_read hi hj, List.getElem_insertIdx]
    split
    · exact hx j (by omega)
    · split
      · rfl
      · exact hx (j - 1) (by omega)

end SC
