import Verif.Table.Simulate
import Verif.Group.Serial
import Verif.Select.Broad
/-!
# Storages that agree on all allocated memory

The storage of a group table in two environments: the first one is strict (all accesses outside of allocated memory are faults) and the
second one is arbitrary.
-/
namespace SC

/-- two allocations of `n` bits with the same contents -/
structure BufR (n : Nat) (m m' : Buf) : Prop where
  alloc : m.alloc = n
  alloc' : m'.alloc = n
  bits : ∀ i < n, m'.bits i = m.bits i

variable {n : Nat} {m m' : Buf} {st : Bool}

theorem guardB_sim (h : BufR n m m') (hi : Nat) : Sim (fun _ _ => hi ≤ n) (guardB true m hi) (guardB st m' hi) := by
  have h1 := h.alloc
  have h2 := h.alloc'
  by_cases hn : m.alloc < hi
  · have : guardB true m hi = .error .oob := by simp [guardB, hn]
    rw [this]
    exact Sim.error
  · rw [guardB_ok (Or.inr (by omega)), guardB_ok (Or.inr (by omega))]
    exact Sim.ok (by omega)

theorem guards_sim (h : BufR n m m') {base off len : Nat} {α β : Type} {P : α → β → Prop} {r : Res α} {r' : Res β}
    (hr : off < 64 → len ≤ 64 → base + off + len ≤ n → Sim P r r') (hr' : ¬ (off < 64 ∧ len ≤ 64) → Sim P r r') :
    Sim P (do
      guardB true m (base + 64)
      if off + len > 64 then guardB true m (base + 128)
      r) (do
      guardB st m' (base + 64)
      if off + len > 64 then guardB st m' (base + 128)
      r') := by
  have key : (off + len > 64 → base + 128 ≤ n) → base + 64 ≤ n → Sim P r r' := by
    intro h2 h1
    by_cases ho : off < 64 ∧ len ≤ 64
    · refine hr ho.1 ho.2 ?_
      by_cases h3 : off + len > 64
      · have := h2 h3; omega
      · omega
    · exact hr' ho
  refine Sim.bind (guardB_sim h _) fun _ _ h1 => ?_
  exact Sim.ite (fun _ => Sim.bind (guardB_sim h _) fun _ _ h2 => key (fun _ => h2) h1) (fun hn => key (fun h => absurd h hn) h1)

theorem readInt_sim (h : BufR n m m') {base off len : Nat} (ho : off < 64) (hl : len ≤ 64) :
    Sim Eq (readInt true m base off len) (readInt st m' base off len) := by
  refine guards_sim h (fun _ _ hb => Sim.pure ?_) (fun hn => absurd ⟨ho, hl⟩ hn)
  exact readBits_congr fun i hi => (h.bits _ (by omega)).symm

theorem writeInt_sim (h : BufR n m m') (base off len x : Nat) :
    Sim (BufR n) (writeInt true m base x off len) (writeInt st m' base x off len) := by
  have hR : BufR n { m with bits := writeBits m.bits (base + off) len x } { m' with bits := writeBits m'.bits (base + off) len x } := by
    refine ⟨h.alloc, h.alloc', fun i hi => ?_⟩
    simp only [writeBits]
    split
    · rfl
    · exact h.bits i hi
  exact guards_sim h (fun _ _ _ => Sim.pure hR) (fun _ => Sim.pure hR)

theorem advance_off {c : Cursor} {len : Nat} (h : c.off < 64) (hl : len ≤ 64) : (c.advance len).off < 64 := by
  unfold Cursor.advance
  split
  · show c.off + len - 64 < 64; omega
  · show c.off + len < 64; omega

theorem moveLeft_off {c : Cursor} (h : c.off < 64) : (c.moveLeft 64).off < 64 := by
  unfold Cursor.moveLeft
  rw [if_pos h]
  show c.off + 64 - 64 < 64
  omega

theorem readMove_sim (h : BufR n m m') {cur : Cursor} {len : Nat} (ho : cur.off < 64) (hl : len ≤ 64) :
    Sim (fun x x' => x' = x ∧ x.2.off < 64) (readIntAndMove true m cur len) (readIntAndMove st m' cur len) := by
  unfold readIntAndMove
  refine Sim.bind (readInt_sim h ho hl) ?_
  rintro x _ rfl
  exact Sim.pure ⟨rfl, advance_off ho hl⟩

theorem writeMove_sim (h : BufR n m m') (cur : Cursor) (len x : Nat) :
    Sim (fun x x' => BufR n x.1 x'.1 ∧ x'.2 = x.2) (writeIntAndMove true m x cur len) (writeIntAndMove st m' x cur len) := by
  unfold writeIntAndMove
  refine Sim.bind (writeInt_sim h _ _ _ _) ?_
  intro y y' hy
  exact Sim.pure ⟨hy, rfl⟩

theorem moveChunks_sim (k : Nat) : ∀ {m m' : Buf} {rd wr : Cursor}, BufR n m m' → rd.off < 64 →
    Sim (fun x x' => BufR n x.1 x'.1 ∧ x'.2 = x.2 ∧ x.2.1.off < 64) (moveChunks true m rd wr k) (moveChunks st m' rd wr k) := by
  induction k with
  | zero => intro m m' rd wr h ho; exact Sim.ok ⟨h, rfl, ho⟩
  | succ k ih =>
    intro m m' rd wr h ho
    unfold moveChunks
    refine Sim.bind (readMove_sim h ho (Nat.le_refl _)) ?_
    rintro ⟨v, rd⟩ _ ⟨rfl, ho⟩
    refine Sim.bind (writeMove_sim h wr 64 v) ?_
    rintro ⟨m, _⟩ ⟨m', wr⟩ ⟨h, rfl⟩
    exact ih h ho

theorem moveBits_sim (h : BufR n m m') {rd wr : Cursor} (ho : rd.off < 64) (k : Nat) :
    Sim (BufR n) (moveBits true m rd wr k) (moveBits st m' rd wr k) := by
  unfold moveBits
  refine Sim.bind (moveChunks_sim _ h ho) ?_
  rintro ⟨m, _⟩ ⟨m', rd, wr⟩ ⟨h, rfl, ho⟩
  refine Sim.ite (fun _ => ?_) (fun _ => Sim.pure h)
  refine Sim.bind (readMove_sim h ho (by omega)) ?_
  rintro ⟨v, rd⟩ _ ⟨rfl, ho⟩
  refine Sim.bind (writeMove_sim h wr _ v) ?_
  rintro ⟨m, _⟩ ⟨m', wr⟩ ⟨h, rfl⟩
  exact Sim.pure h

theorem shiftChunks_sim (k : Nat) : ∀ {m m' : Buf} {rd wr : Cursor}, BufR n m m' → rd.off < 64 →
    Sim (BufR n) (shiftChunks true m rd wr k) (shiftChunks st m' rd wr k) := by
  induction k with
  | zero => intro m m' rd wr h ho; exact Sim.ok h
  | succ k ih =>
    intro m m' rd wr h ho
    unfold shiftChunks
    refine Sim.bind (readInt_sim h ho (Nat.le_refl _)) ?_
    rintro v _ rfl
    refine Sim.bind (writeInt_sim h _ _ _ _) ?_
    intro m m' h
    exact ih h (moveLeft_off ho)

/-! ## Arrays -/

/-- two arrays for `len` entries of width `w` with the same contents; a reallocation for another entry adds at most one word -/
def CoreR (w len : Nat) (b b' : VarB) : Prop :=
  ∃ m m' n, b = some m ∧ b' = some m' ∧ BufR n m m' ∧ 64 * ceilDiv (w * len) 64 ≤ n ∧ 64 * (ceilDiv (w * (len + 2)) 64 - 1) ≤ n

theorem mul_step (w len k : Nat) (hw : w ≤ 64) : w * (len + k + 1) ≤ w * (len + k) + 64 := by
  rw [Nat.mul_succ]; omega

theorem coreInit_R (w : Nat) (hw : w ≤ 64) : CoreR w 0 (coreInit w) (coreInit w) := by
  refine ⟨_, _, 64 * ceilDiv w 64, rfl, rfl, ⟨rfl, rfl, fun _ _ => rfl⟩, ?_, ?_⟩
  · simp [ceilDiv]
  · unfold ceilDiv
    omega

variable {c c' : GrpCfg} {w len : Nat} {b b' : VarB}

theorem coreErase_sim (hs : c.strict = true) (h : CoreR w len b b') (idx : Nat) :
    Sim (CoreR w (len - 1)) (coreErase c b idx w len) (coreErase c' b' idx w len) := by
  obtain ⟨m, m', n, rfl, rfl, h, h1, h2⟩ := h
  have e1 : w * (len - 1) ≤ w * len := Nat.mul_le_mul_left _ (by omega)
  have e2 : w * (len - 1 + 2) ≤ w * (len + 2) := Nat.mul_le_mul_left _ (by omega)
  have hn : ¬ (len - 1 > 0 ∧ ceilDiv (w * len) 64 < ceilDiv (w * (len - 1)) 64) := by unfold ceilDiv; omega
  unfold coreErase
  simp only [deref, ok_bind, if_neg hn, hs]
  refine Sim.bind (moveBits_sim h (Nat.mod_lt _ (by omega)) _) ?_
  intro m m' h
  refine Sim.pure ⟨m, m', n, rfl, rfl, h, ?_, ?_⟩
  · unfold ceilDiv at h1 ⊢; omega
  · unfold ceilDiv at h2 ⊢; omega

/-- the first part of `coreInsert`: the reallocation -/
def coreGrown (c : GrpCfg) (b : VarB) (w len : Nat) : VarB :=
  let old := ceilDiv (w * len) 64
  let new := ceilDiv (w * (len + 2)) 64
  if old < new then
      let m := match b with
        | some m => reallocBits c.junk m (64 * new)
        | none => mallocBits c.junk (64 * new)
      some { m with bits := writeBits m.bits (64 * (new - 1)) 64 0 }
    else b

/-- the second part of `coreInsert`: moving entries and writing the new one -/
def coreShifted (c : GrpCfg) (b : VarB) (idx key w len : Nat) : Res VarB := do
  let m ← deref b
  let readPos := len * w
  let n := (len - idx) * w / 64
  let m ← (if n > 0 then
      shiftChunks c.strict m ⟨(readPos - 64) / 64 * 64, (readPos - 64) % 64⟩
        ⟨(readPos + w - 64) / 64 * 64, (readPos + w - 64) % 64⟩ n
    else .ok m : Res Buf)
  let readPos := readPos - n * 64
  let m ← (if len > 0 ∧ readPos > idx * w then do
      let rem := (len - idx) * w - n * 64
      let v ← readInt c.strict m ((idx * w) / 64 * 64) ((idx * w) % 64) rem
      writeInt c.strict m (((idx + 1) * w) / 64 * 64) v (((idx + 1) * w) % 64) rem
    else .ok m : Res Buf)
  let m ← writeInt c.strict m ((idx * w) / 64 * 64) key ((idx * w) % 64) w
  return some m

theorem coreInsert_parts (c : GrpCfg) (b : VarB) (idx key w len : Nat) :
    coreInsert c b idx key w len = coreShifted c (coreGrown c b w len) idx key w len := rfl

theorem coreGrown_R (h : CoreR w len b b') (hw : w ≤ 64) : ∃ m m' n, coreGrown c b w len = some m ∧ coreGrown c' b' w len = some m' ∧
    BufR n m m' ∧ 64 * ceilDiv (w * (len + 1)) 64 ≤ n ∧ 64 * (ceilDiv (w * (len + 1 + 2)) 64 - 1) ≤ n := by
  obtain ⟨m, m', n, rfl, rfl, h, h1, h2⟩ := h
  have e1 : w * (len + 1) ≤ w * (len + 2) := Nat.mul_le_mul_left _ (by omega)
  have e2 := mul_step w len 2 hw
  have e3 : w * (len + 1 + 2) = w * (len + 2 + 1) := by congr 1
  have k1 : ceilDiv (w * (len + 1)) 64 ≤ ceilDiv (w * (len + 2)) 64 := by unfold ceilDiv; omega
  have k2 : ceilDiv (w * (len + 1 + 2)) 64 - 1 ≤ ceilDiv (w * (len + 2)) 64 := by rw [e3]; unfold ceilDiv; omega
  unfold coreGrown
  by_cases hc : ceilDiv (w * len) 64 < ceilDiv (w * (len + 2)) 64
  · simp only [if_pos hc]
    refine ⟨_, _, 64 * ceilDiv (w * (len + 2)) 64, rfl, rfl, ⟨rfl, rfl, fun i hi => ?_⟩, by omega, by omega⟩
    simp only [writeBits, reallocBits, h.alloc, h.alloc']
    split
    · rfl
    · have : i < n ∧ i < 64 * ceilDiv (w * (len + 2)) 64 := by omega
      rw [if_pos this, if_pos this]
      exact h.bits i this.1
  · simp only [if_neg hc]
    exact ⟨_, _, n, rfl, rfl, h, by omega, by omega⟩

theorem coreInsert_sim (hs : c.strict = true) (h : CoreR w len b b') (hw : w ≤ 64) (idx key : Nat) :
    Sim (CoreR w (len + 1)) (coreInsert c b idx key w len) (coreInsert c' b' idx key w len) := by
  obtain ⟨m, m', n, h1, h2, h3, h4, h5⟩ := coreGrown_R (c := c) (c' := c') h hw
  rw [coreInsert_parts, coreInsert_parts, h1, h2]
  unfold coreShifted
  simp only [deref, ok_bind, hs]
  refine Sim.bind (P := BufR n) ?_ ?_
  · exact Sim.ite (fun _ => shiftChunks_sim _ h3 (by show (len * w - 64) % 64 < 64; omega)) (fun _ => Sim.ok h3)
  intro m m' h3
  refine Sim.bind (P := BufR n) ?_ ?_
  · refine Sim.ite (fun _ => ?_) (fun _ => Sim.ok h3)
    refine Sim.bind (readInt_sim h3 (Nat.mod_lt _ (by omega)) ?_) ?_
    · have := Nat.div_add_mod ((len - idx) * w) 64
      have := Nat.mod_lt ((len - idx) * w) (show 64 > 0 by omega)
      omega
    · rintro v _ rfl
      exact writeInt_sim h3 _ _ _ _
  intro m m' h3
  refine Sim.bind (writeInt_sim h3 _ _ _ _) ?_
  intro m m' h3
  exact Sim.pure ⟨m, m', n, rfl, rfl, h3, h4, h5⟩

theorem coreRead_sim (hs : c.strict = true) (h : CoreR w len b b') (hw : w ≤ 64) (i : Nat) :
    Sim Eq (coreRead c b i w) (coreRead c' b' i w) := by
  obtain ⟨m, m', n, rfl, rfl, h, h1, h2⟩ := h
  unfold coreRead
  simp only [deref, ok_bind, hs]
  exact readInt_sim h (Nat.mod_lt _ (by omega)) hw

theorem coreWrite_sim (hs : c.strict = true) (h : CoreR w len b b') (i x : Nat) :
    Sim (CoreR w len) (coreWrite c b i x w) (coreWrite c' b' i x w) := by
  obtain ⟨m, m', n, rfl, rfl, h, h1, h2⟩ := h
  unfold coreWrite
  simp only [deref, ok_bind, hs]
  refine Sim.bind (writeInt_sim h _ _ _ _) ?_
  intro m m' h
  exact Sim.pure ⟨m, m', n, rfl, rfl, h, h1, h2⟩

theorem coreScan_sim (hw : w ≤ 64) (key : Nat) (k : Nat) : ∀ {i : Nat} {cur : Cursor}, BufR n m m' → cur.off < 64 →
    Sim Eq (coreScan true m key w i cur k) (coreScan st m' key w i cur k) := by
  induction k with
  | zero => intro i cur _ _; exact Sim.ok rfl
  | succ k ih =>
    intro i cur h ho
    unfold coreScan
    refine Sim.bind (readMove_sim h ho hw) ?_
    rintro ⟨v, cur⟩ _ ⟨rfl, ho⟩
    exact Sim.ite (fun _ => Sim.pure rfl) (fun _ => ih h ho)

theorem coreFind_sim (hs : c.strict = true) (h : CoreR w len b b') (hw : w ≤ 64) (lo key hi : Nat) :
    Sim Eq (coreFind c b lo key hi w) (coreFind c' b' lo key hi w) := by
  obtain ⟨m, m', n, rfl, rfl, h, h1, h2⟩ := h
  unfold coreFind
  simp only [deref, ok_bind, hs]
  exact coreScan_sim hw key _ h (Nat.mod_lt _ (by omega))

theorem coreSerialize_sim (h : CoreR w len b b') (k : Nat) : Sim Eq (coreSerialize b w k) (coreSerialize b' w k) := by
  obtain ⟨m, m', n, rfl, rfl, h, h1, h2⟩ := h
  unfold coreSerialize
  simp only [deref, ok_bind]
  refine Sim.bind (guardB_sim h _) fun _ _ hg => Sim.pure ?_
  unfold memBytes
  refine List.map_congr_left fun j hj => ?_
  have := List.mem_range.mp hj
  exact readBits_congr fun i hi => (h.bits _ (by omega)).symm

/-! ## Borders -/

/-- two border arrays of `n` words with the same contents -/
structure BorderR (n : Nat) (b b' : Border) : Prop where
  len : b.len = n
  len' : b'.len = n
  w : ∀ i < n, b'.w i = b.w i
  lt : ∀ i < n, b.w i < W64

section
variable {n : Nat} {b b' : Border}

theorem Border.get_sim (h : BorderR n b b') (i : Nat) : Sim (fun x x' => x' = x ∧ x < W64 ∧ i < n) (b.get i) (b'.get i) := by
  unfold Border.get
  rw [h.len, h.len']
  exact Sim.ite (fun hi => Sim.ok ⟨h.w i hi, h.lt i hi, hi⟩) (fun _ => Sim.error)

theorem BorderR.set (h : BorderR n b b') (i : Nat) {x : Nat} (hx : x < W64) :
    BorderR n { b with w := upd b.w i x } { b' with w := upd b'.w i x } := by
  refine ⟨h.len, h.len', fun j hj => ?_, fun j hj => ?_⟩
  · simp only [upd]
    split
    · rfl
    · exact h.w j hj
  · simp only [upd]
    split
    · exact hx
    · exact h.lt j hj

theorem Border.set_sim (h : BorderR n b b') (i : Nat) {x : Nat} (hx : x < W64) : Sim (BorderR n) (b.set i x) (b'.set i x) := by
  have hR := h.set i hx
  unfold Border.set
  rw [h.len, h.len'] at hR ⊢
  exact Sim.ite (fun _ => Sim.ok hR) (fun _ => Sim.error)

/-- both implementations of `select64` find the same position -/
theorem select64_sim {bmi bmi' : Bool} {x i : Nat} (hx : x < W64) (h1 : 1 ≤ i) (h2 : i ≤ popcount x) :
    Sim Eq (select64 bmi x i) (select64 bmi' x i) := by
  have hs : ∀ b : Bool, ∃ r, select64 b x i = .ok r ∧ r < 64 ∧ IsSelect x.testBit (i - 1) r := by
    intro b
    cases b with
    | true => exact select64bmi_spec h1 h2
    | false => exact select64broad_spec hx h1 h2
  obtain ⟨r, e, _, hr⟩ := hs bmi
  obtain ⟨r', e', _, hr'⟩ := hs bmi'
  rw [e, e']
  exact Sim.ok (hr.unique hr')

theorem Border.findLoop_sim {bmi bmi' : Bool} (h : BorderR n b b') (f : Nat) : ∀ i rem sum,
    Sim Eq (b.findLoop bmi f i rem sum) (b'.findLoop bmi' f i rem sum) := by
  induction f with
  | zero => intro i rem sum; exact Sim.error
  | succ f ih =>
    intro i rem sum
    unfold Border.findLoop
    refine Sim.bind (Border.get_sim h i) ?_
    rintro x _ ⟨rfl, hx, _⟩
    refine Sim.ite (fun _ => ih _ _ _) (fun hp => ?_)
    refine Sim.bind (select64_sim hx (by omega) (by omega)) ?_
    rintro r _ rfl
    exact Sim.pure rfl

theorem Border.find_sim {bmi bmi' : Bool} (h : BorderR n b b') (g : Nat) : Sim Eq (b.find bmi g) (b'.find bmi' g) := by
  unfold Border.find
  rw [h.len, h.len']
  exact Border.findLoop_sim h _ _ _ _

theorem or_lt_W64 {x y : Nat} (hx : x < W64) (hy : y < W64) : x ||| y < W64 := Nat.or_lt_two_pow (n := 64) hx hy

theorem and_lt_W64 {x : Nat} (y : Nat) (hx : x < W64) : x &&& y < W64 := Nat.lt_of_le_of_lt Nat.and_le_left hx

theorem shr_lt_W64 {x : Nat} (k : Nat) (hx : x < W64) : x >>> k < W64 := Nat.lt_of_le_of_lt (Nat.shiftRight_le x k) hx

theorem mod_lt_W64 (x : Nat) : x % W64 < W64 := Nat.mod_lt _ (by decide)

theorem Border.shiftUp_sim (k : Nat) : ∀ {b b' : Border} (i : Nat) (high : Bool), BorderR n b b' →
    Sim (BorderR n) (b.shiftUp i high k) (b'.shiftUp i high k) := by
  induction k with
  | zero => intro b b' i high h; exact Sim.ok h
  | succ k ih =>
    intro b b' i high h
    unfold Border.shiftUp
    refine Sim.bind (Border.get_sim h i) ?_
    rintro x _ ⟨rfl, hx, _⟩
    refine Sim.bind (Border.set_sim h i (or_lt_W64 (mod_lt_W64 _) ?_)) ?_
    · cases high <;> decide
    · intro b b' h
      exact ih _ _ h

theorem pushWord_lt {cur : Nat} (e : Nat) (h : cur < W64) : pushWord cur e < W64 := by
  unfold pushWord
  split
  · exact and_lt_W64 _ h
  · exact or_lt_W64 (and_lt_W64 _ h) (and_lt_W64 _ (mod_lt_W64 _))

theorem Border.push_sim {bpg size : Nat} (h : BorderR (ceilDiv (size + bpg) 64) b b') (e : Nat) :
    Sim (BorderR (ceilDiv (size + 1 + bpg) 64)) (b.push c bpg size e) (b'.push c' bpg size e) := by
  unfold Border.push
  refine Sim.bind (P := BorderR (ceilDiv (size + 1 + bpg) 64)) ?_ ?_
  · refine Sim.ite (fun hn => ?_) (fun hn => ?_)
    · have hlast : ceilDiv (size + 1 + bpg) 64 - 1 < ceilDiv (size + 1 + bpg) 64 := by omega
      have hle : ceilDiv (size + 1 + bpg) 64 - 1 ≤ ceilDiv (size + bpg) 64 := by unfold ceilDiv; omega
      simp only [Border.set, if_pos hlast]
      refine Sim.ok ⟨rfl, rfl, fun i hi => ?_, fun i hi => ?_⟩
      · simp only [upd, h.len, h.len']
        split
        · rfl
        · have : i < ceilDiv (size + bpg) 64 := by omega
          rw [if_pos this, if_pos this]
          exact h.w i this
      · simp only [upd, h.len]
        split
        · decide
        · have : i < ceilDiv (size + bpg) 64 := by omega
          rw [if_pos this]
          exact h.lt i this
    · have : ceilDiv (size + 1 + bpg) 64 = ceilDiv (size + bpg) 64 := by unfold ceilDiv at hn ⊢; omega
      rw [this]
      exact Sim.ok h
  · intro b b' h
    refine Sim.bind (Border.get_sim h _) ?_
    rintro x _ ⟨rfl, hx, _⟩
    refine Sim.bind (Border.set_sim h _ (pushWord_lt e hx)) ?_
    intro b b' h
    exact Border.shiftUp_sim _ _ _ h

theorem low_sim {c : Prop} [Decidable c] (h : BorderR n b b') (i : Nat) :
    Sim Eq (if c then .ok 0 else do
      let y ← b.get i
      return y &&& 1 : Res Nat) (if c then .ok 0 else do
      let y ← b'.get i
      return y &&& 1 : Res Nat) := by
  refine Sim.ite (fun _ => Sim.ok rfl) (fun _ => ?_)
  refine Sim.bind (Border.get_sim h _) ?_
  rintro x _ ⟨rfl, hx, _⟩
  exact Sim.pure rfl

theorem Border.shiftDown_sim (size k : Nat) : ∀ {b b' : Border} (i : Nat), BorderR n b b' →
    Sim (BorderR n) (b.shiftDown size i k) (b'.shiftDown size i k) := by
  induction k with
  | zero => intro b b' i h; exact Sim.ok h
  | succ k ih =>
    intro b b' i h
    unfold Border.shiftDown
    refine Sim.bind (low_sim h _) ?_
    rintro low _ rfl
    refine Sim.bind (Border.get_sim h _) ?_
    rintro x _ ⟨rfl, hx, _⟩
    refine Sim.bind (Border.set_sim h i (or_lt_W64 (shr_lt_W64 _ hx) (mod_lt_W64 _))) ?_
    intro b b' h
    exact ih _ h

theorem eraseWord_lt {cur : Nat} (e : Nat) (h : cur < W64) : eraseWord cur e < W64 :=
  or_lt_W64 (and_lt_W64 _ h) (shr_lt_W64 _ (and_lt_W64 _ h))

theorem Border.eraseHead_sim (h : BorderR n b b') (e : Nat) {cur : Nat} (hx : cur < W64) :
    Sim (BorderR n) (b.eraseHead e cur) (b'.eraseHead e cur) := by
  unfold Border.eraseHead
  refine Sim.ite (fun _ => Sim.ite (fun _ => Sim.error) (fun _ => ?_)) (fun _ => Border.set_sim h _ (eraseWord_lt e hx))
  refine Sim.bind (Border.get_sim h _) ?_
  rintro p _ ⟨rfl, hp, _⟩
  refine Sim.bind (Border.set_sim h _ (or_lt_W64 hp (by decide))) ?_
  intro b b' h
  exact Border.set_sim h _ (shr_lt_W64 _ hx)

theorem Border.erase_sim {bpg size : Nat} (hs : 1 ≤ size) (h : BorderR (ceilDiv (size + 1 + bpg) 64) b b') (e : Nat) :
    Sim (BorderR (ceilDiv (size - 1 + 1 + bpg) 64)) (b.erase bpg size e) (b'.erase bpg size e) := by
  unfold Border.erase
  refine Sim.bind (Border.get_sim h _) ?_
  rintro x _ ⟨rfl, hx, _⟩
  refine Sim.bind (Border.eraseHead_sim h e hx) ?_
  intro b b' h
  refine Sim.bind (low_sim h _) ?_
  rintro low _ rfl
  refine Sim.bind (Border.get_sim h _) ?_
  rintro x _ ⟨rfl, hx, _⟩
  refine Sim.bind (Border.set_sim h _ (or_lt_W64 hx (mod_lt_W64 _))) ?_
  intro b b' h
  refine Sim.bind (Border.shiftDown_sim _ _ _ h) ?_
  intro b b' h
  refine Sim.pure ?_
  have hle : ceilDiv (size - 1 + 1 + bpg) 64 ≤ ceilDiv (size + 1 + bpg) 64 := by unfold ceilDiv; omega
  by_cases hn : ceilDiv (size - 1 + 1 + bpg) 64 < ceilDiv (size + 1 + bpg) 64
  · simp only [if_pos hn]
    exact ⟨rfl, rfl, fun i hi => h.w i (by omega), fun i hi => h.lt i (by omega)⟩
  · simp only [if_neg hn]
    have : ceilDiv (size - 1 + 1 + bpg) 64 = ceilDiv (size + 1 + bpg) 64 := by omega
    rw [this]
    exact h

theorem borderInit_sim (bpg : Nat) : Sim (BorderR (ceilDiv (0 + 1 + bpg) 64)) (borderInit c bpg) (borderInit c' bpg) := by
  have e0 : 0 + 1 + bpg = bpg + 1 := by omega
  rw [e0]
  unfold borderInit
  simp only
  refine Sim.ite (fun hn => ?_) (fun hn => ?_)
  · refine Sim.same fun x hx => ?_
    have hxl : x < W64 := by
      unfold shr64 at hx
      split at hx
      · cases hx
        exact shr_lt_W64 _ (by decide)
      · cases hx
    have hlast : ceilDiv (bpg + 1) 64 - 1 < ceilDiv (bpg + 1) 64 := by unfold ceilDiv; omega
    simp only [Border.set, if_pos hlast]
    refine Sim.ok ⟨rfl, rfl, fun i hi => ?_, fun i hi => ?_⟩
    · simp only [upd]
      split
      · rfl
      · have : 8 * (i + 1) ≤ ceilDiv (bpg + 1) 8 := by unfold ceilDiv at *; omega
        rw [if_pos this, if_pos this]
    · simp only [upd]
      split
      · exact hxl
      · have : 8 * (i + 1) ≤ ceilDiv (bpg + 1) 8 := by unfold ceilDiv at *; omega
        rw [if_pos this]
        decide
  · have hall : ∀ i < ceilDiv (bpg + 1) 64, 8 * (i + 1) ≤ ceilDiv (bpg + 1) 8 := by
      intro i hi
      unfold ceilDiv at *
      omega
    refine Sim.ok ⟨rfl, rfl, fun i hi => ?_, fun i hi => ?_⟩
    · show (if _ then _ else _) = (if _ then _ else _)
      rw [if_pos (hall i hi), if_pos (hall i hi)]
    · show (if _ then _ else _) < _
      rw [if_pos (hall i hi)]
      decide

end

/-! ## Groups -/

/-- two initialised groups with the same contents -/
structure FilledR (bpg qw vw : Nat) (x x' : Group) : Prop where
  size : x'.size = x.size
  le : x.size ≤ 255
  keys : CoreR qw x.size x.keys x'.keys
  vals : CoreR vw x.size x.vals x'.vals
  border : ∃ b b', x.border = some b ∧ x'.border = some b' ∧ BorderR (ceilDiv (x.size + 1 + bpg) 64) b b'

/-- two cleared groups or two groups that are not empty -/
def GroupR (bpg qw vw : Nat) (x x' : Group) : Prop :=
  (x = Group.none ∧ x' = Group.none) ∨ (1 ≤ x.size ∧ FilledR bpg qw vw x x')

variable {bpg qw vw : Nat} {x x' : Group}

theorem GroupR.size (h : GroupR bpg qw vw x x') : x'.size = x.size := by
  rcases h with ⟨rfl, rfl⟩ | ⟨_, h⟩
  · rfl
  · exact h.size

theorem GroupR.le (h : GroupR bpg qw vw x x') : x.size ≤ 255 := by
  rcases h with ⟨rfl, rfl⟩ | ⟨_, h⟩
  · show 0 ≤ 255; omega
  · exact h.le

theorem getBorder_sim (h : FilledR bpg qw vw x x') :
    Sim (BorderR (ceilDiv (x.size + 1 + bpg) 64)) x.getBorder x'.getBorder := by
  obtain ⟨b, b', h1, h2, h3⟩ := h.border
  unfold Group.getBorder
  rw [h1, h2]
  exact Sim.ok h3

theorem Group.pos_sim (h : FilledR bpg qw vw x x') (g : Nat) : Sim Eq (x.pos c g) (x'.pos c' g) := by
  unfold Group.pos
  refine Sim.bind (getBorder_sim h) ?_
  intro b b' hb
  exact Border.find_sim hb g

/-- a cleared group has no border -/
theorem Group.none_pos (g : Nat) : Group.none.pos c g = .error .null := rfl

theorem GroupR.pos (h : GroupR bpg qw vw x x') (g : Nat) : Sim Eq (x.pos c g) (x'.pos c' g) := by
  rcases h with ⟨rfl, rfl⟩ | ⟨_, h⟩
  · exact Sim.error
  · exact Group.pos_sim h g

theorem GroupR.bucketsize (h : GroupR bpg qw vw x x') (i : Nat) : Sim Eq (x.bucketsize c i) (x'.bucketsize c' i) := by
  unfold Group.bucketsize
  rw [h.size]
  refine Sim.ite (fun _ => Sim.pure rfl) (fun _ => ?_)
  refine Sim.bind (P := Eq) ?_ ?_
  · refine Sim.ite (fun _ => Sim.ok rfl) (fun _ => ?_)
    refine Sim.bind (h.pos _) ?_
    rintro p _ rfl
    exact Sim.pure rfl
  · rintro p _ rfl
    refine Sim.bind (h.pos _) ?_
    rintro p _ rfl
    exact Sim.pure rfl

theorem GroupR.start (h : GroupR bpg qw vw x x') (g : Nat) : Sim Eq (x.start c g) (x'.start c' g) := by
  unfold Group.start
  refine Sim.ite (fun _ => Sim.ok rfl) (fun _ => ?_)
  refine Sim.bind (h.pos _) ?_
  rintro p _ rfl
  exact Sim.pure rfl

theorem GroupR.readKey (hs : c.strict = true) (hq : qw ≤ 64) (h : GroupR bpg qw vw x x') (g i : Nat) :
    Sim Eq (x.readKey c g i qw) (x'.readKey c' g i qw) := by
  unfold Group.readKey
  refine Sim.bind (h.start g) ?_
  rintro s _ rfl
  rcases h with ⟨rfl, rfl⟩ | ⟨_, h⟩
  · exact Sim.error
  · exact coreRead_sim hs h.keys hq _

theorem GroupR.readValue (hs : c.strict = true) (hv : vw ≤ 64) (h : GroupR bpg qw vw x x') (g i : Nat) :
    Sim Eq (x.readValue c g i vw) (x'.readValue c' g i vw) := by
  unfold Group.readValue
  refine Sim.bind (h.start g) ?_
  rintro s _ rfl
  rcases h with ⟨rfl, rfl⟩ | ⟨_, h⟩
  · exact Sim.error
  · exact coreRead_sim hs h.vals hv _

theorem GroupR.writeValue (hs : c.strict = true) (h : GroupR bpg qw vw x x') (g i v : Nat) :
    Sim (GroupR bpg qw vw) (x.writeValue c g i v vw) (x'.writeValue c' g i v vw) := by
  unfold Group.writeValue
  refine Sim.bind (h.start g) ?_
  rintro s _ rfl
  rcases h with ⟨rfl, rfl⟩ | ⟨h1, h⟩
  · exact Sim.error
  · refine Sim.bind (coreWrite_sim hs h.vals _ _) ?_
    intro vs vs' hvs
    exact Sim.pure (Or.inr ⟨h1, h.size, h.le, h.keys, hvs, h.border⟩)

theorem GroupR.find (hs : c.strict = true) (hq : qw ≤ 64) (h : GroupR bpg qw vw x x') (g q : Nat) :
    Sim Eq (x.find c g q qw) (x'.find c' g q qw) := by
  unfold Group.find
  refine Sim.bind (h.start g) ?_
  rintro s _ rfl
  refine Sim.bind (h.pos g) ?_
  rintro e _ rfl
  refine Sim.ite (fun _ => Sim.pure rfl) (fun _ => ?_)
  rcases h with ⟨rfl, rfl⟩ | ⟨_, h⟩
  · exact Sim.error
  · refine Sim.bind (coreFind_sim hs h.keys hq _ _ _) ?_
    rintro r _ rfl
    exact Sim.pure rfl

theorem GroupR.locate (hs : c.strict = true) (hq : qw ≤ 64) (h : GroupR bpg qw vw x x') (g q : Nat) :
    Sim Eq (x.locate c g q qw) (x'.locate c' g q qw) := by
  unfold Group.locate
  rw [h.size]
  exact Sim.ite (fun _ => Sim.ok rfl) (fun _ => h.find hs hq g q)

theorem FilledR.push (hs : c.strict = true) (hq : qw ≤ 64) (hv : vw ≤ 64) (h : FilledR bpg qw vw x x') (hf : x.size ≠ 255)
    (g q v : Nat) : Sim (GroupR bpg qw vw) (x.push c bpg g q qw v vw) (x'.push c' bpg g q qw v vw) := by
  have hle := h.le
  have hsz : (x.size + 1) % 2 ^ 32 = x.size + 1 := Nat.mod_eq_of_lt (by omega)
  unfold Group.push
  refine Sim.bind (Group.pos_sim h g) ?_
  rintro e _ rfl
  rw [h.size]
  refine Sim.bind (coreInsert_sim hs h.keys hq _ _) ?_
  intro ks ks' hks
  refine Sim.bind (coreInsert_sim hs h.vals hv _ _) ?_
  intro vs vs' hvs
  refine Sim.bind (getBorder_sim h) ?_
  intro b b' hb
  rw [hsz]
  refine Sim.bind (Border.push_sim hb e) ?_
  intro b b' hb
  exact Sim.pure (Or.inr ⟨Nat.le_add_left 1 _, rfl, (by show x.size + 1 ≤ 255; omega), hks, hvs, b, b', rfl, rfl, hb⟩)

theorem Group.init_sim (hq : qw ≤ 64) (hv : vw ≤ 64) :
    Sim (fun x x' => FilledR bpg qw vw x x' ∧ x.size = 0) (Group.init c bpg qw vw) (Group.init c' bpg qw vw) := by
  unfold Group.init
  refine Sim.bind (borderInit_sim bpg) ?_
  intro b b' hb
  exact Sim.pure ⟨⟨rfl, Nat.zero_le _, coreInit_R _ hq, coreInit_R _ hv, b, b', rfl, rfl, hb⟩, rfl⟩

theorem GroupR.insert (hs : c.strict = true) (hq : qw ≤ 64) (hv : vw ≤ 64) (h : GroupR bpg qw vw x x') (hf : x.size ≠ 255)
    (g q v : Nat) : Sim (GroupR bpg qw vw) (x.insert c bpg g q qw v vw) (x'.insert c' bpg g q qw v vw) := by
  unfold Group.insert
  rcases h with ⟨rfl, rfl⟩ | ⟨_, h⟩
  · refine Sim.bind (Group.init_sim hq hv) ?_
    intro y y' hy
    exact hy.1.push hs hq hv (by rw [hy.2]; omega) g q v
  · obtain ⟨b, b', h1, h2, _⟩ := h.border
    rw [h1, h2]
    simp only [Option.isNone_some, Bool.false_eq_true, if_false, ok_bind]
    exact h.push hs hq hv hf g q v

theorem GroupR.remove (hs : c.strict = true) (h : GroupR bpg qw vw x x') (g i : Nat) :
    Sim (GroupR bpg qw vw) (x.remove c bpg g i qw vw) (x'.remove c' bpg g i qw vw) := by
  rcases h with ⟨rfl, rfl⟩ | ⟨h1, h⟩
  · unfold Group.remove Group.erase
    by_cases hg : g = 0
    · simp only [if_pos hg, ok_bind, Group.none_pos, error_bind]
      exact Sim.error
    · simp only [if_neg hg, Group.none_pos, error_bind]
      exact Sim.error
  · have hle := h.le
    have hsz : (x.size + 2 ^ 32 - 1) % 2 ^ 32 = x.size - 1 := by omega
    unfold Group.remove
    refine Sim.bind (P := fun y y' => FilledR bpg qw vw y y') ?_ ?_
    · unfold Group.erase
      refine Sim.bind (P := Eq) (Sim.ite (fun _ => Sim.ok rfl) (fun _ => Group.pos_sim h _)) ?_
      rintro s _ rfl
      refine Sim.bind (Group.pos_sim h g) ?_
      rintro e _ rfl
      rw [h.size]
      refine Sim.bind (coreErase_sim hs h.keys _) ?_
      intro ks ks' hks
      refine Sim.bind (coreErase_sim hs h.vals _) ?_
      intro vs vs' hvs
      refine Sim.bind (getBorder_sim h) ?_
      intro b b' hb
      refine Sim.bind (Border.erase_sim h1 hb e) ?_
      intro b b' hb
      rw [hsz]
      exact Sim.pure ⟨rfl, (by show x.size - 1 ≤ 255; omega), hks, hvs, b, b', rfl, rfl, hb⟩
    · intro y y' hy
      refine Sim.pure ?_
      rw [hy.size]
      by_cases h0 : y.size = 0
      · rw [if_pos h0, if_pos h0]
        exact Or.inl ⟨rfl, rfl⟩
      · rw [if_neg h0, if_neg h0]
        exact Or.inr ⟨by omega, hy⟩

theorem Border.write_sim {n : Nat} {b b' : Border} (h : BorderR n b b') (k : Nat) : ∀ i, Sim Eq (b.write i k) (b'.write i k) := by
  induction k with
  | zero => intro i; exact Sim.ok rfl
  | succ k ih =>
    intro i
    unfold Border.write
    refine Sim.bind (Border.get_sim h i) ?_
    rintro x _ ⟨rfl, _⟩
    refine Sim.bind (ih _) ?_
    rintro r _ rfl
    exact Sim.pure rfl

theorem GroupR.serialize (h : GroupR bpg qw vw x x') : Sim Eq (x.serialize bpg qw vw) (x'.serialize bpg qw vw) := by
  unfold Group.serialize
  rw [h.size]
  refine Sim.ite (fun _ => Sim.pure rfl) (fun h0 => ?_)
  rcases h with ⟨rfl, rfl⟩ | ⟨_, h⟩
  · exact absurd rfl h0
  · refine Sim.bind (getBorder_sim h) ?_
    intro b b' hb
    refine Sim.bind (Border.write_sim hb _ _) ?_
    rintro bs _ rfl
    refine Sim.bind (coreSerialize_sim h.keys _) ?_
    rintro ks _ rfl
    refine Sim.bind (coreSerialize_sim h.vals _) ?_
    rintro vs _ rfl
    exact Sim.pure rfl

/-! ## Tables -/

/-- two storages with the same contents; nothing is said if the first one has no groups at all -/
def GrpR (s s' : GrpStore) (d : Dim) : Prop :=
  s.n = 0 ∨ (s'.n = s.n ∧ d.qw ≤ 64 ∧ d.vw ≤ 64 ∧ ∀ j < s.n, GroupR d.bpg d.qw d.vw (s.grp j) (s'.grp j))

variable {s s' : GrpStore} {d : Dim}

theorem GrpR.get (h : GrpR s s' d) (j : Nat) :
    Sim (fun x x' => GroupR d.bpg d.qw d.vw x x' ∧ x = s.grp j ∧ d.qw ≤ 64 ∧ d.vw ≤ 64 ∧ j < s.n) (s.get j) (s'.get j) := by
  unfold GrpStore.get
  rcases h with h | ⟨h1, h2, h3, h4⟩
  · rw [h, if_neg (by omega)]
    exact Sim.error
  · rw [h1]
    exact Sim.ite (fun hj => Sim.ok ⟨h4 j hj, rfl, h2, h3, hj⟩) (fun _ => Sim.error)

theorem GrpR.set (h : GrpR s s' d) (j : Nat) {x x' : Group} (hx : GroupR d.bpg d.qw d.vw x x') : GrpR (s.set j x) (s'.set j x') d := by
  rcases h with h | ⟨h1, h2, h3, h4⟩
  · exact Or.inl h
  · refine Or.inr ⟨h1, h2, h3, fun i hi => ?_⟩
    simp only [GrpStore.set, upd]
    split
    · exact hx
    · exact h4 i hi

/-- the storage functions, with an allocation that gives nothing for widths above 64 -/
def grpRefOps (c : GrpCfg) : StoreOps GrpStore :=
  { grpOps c with
    alloc := fun d => .ok { n := if d.qw ≤ 64 ∧ d.vw ≤ 64 then 2 ^ d.tb / d.bpg + 1 else 0, grp := fun _ => Group.none } }

theorem grp_storeSim (hs : c.strict = true) : StoreSim (grpRefOps c) (grpOps c') GrpR where
  alloc d := by
    refine Sim.ok ?_
    by_cases hd : d.qw ≤ 64 ∧ d.vw ≤ 64
    · exact Or.inr ⟨(if_pos hd).symm, hd.1, hd.2, fun _ _ => Or.inl ⟨rfl, rfl⟩⟩
    · exact Or.inl (if_neg hd)
  size h i := by
    refine Sim.bind (h.get _) ?_
    rintro x x' ⟨hx, _⟩
    exact hx.bucketsize _
  locate h i q := by
    refine Sim.bind (h.get _) ?_
    rintro x x' ⟨hx, _, hq, _⟩
    exact hx.locate hs hq _ _
  full h i := by
    refine Sim.bind (h.get _) ?_
    rintro x x' ⟨hx, _⟩
    refine Sim.pure ?_
    rw [hx.size]
  push {s s' d} h i q v hf := by
    refine Sim.bind (h.get _) ?_
    rintro x x' ⟨hx, rfl, hq, hv, hj⟩
    have hne : (s.grp (i / d.bpg)).size ≠ 255 := by
      have e : s.get (i / d.bpg) = .ok (s.grp (i / d.bpg)) := by unfold GrpStore.get; rw [if_pos hj]
      have hf' : (do
        let x ← s.get (i / d.bpg)
        return x.size == 255 : Res Bool) = .ok false := hf
      rw [e, ok_bind] at hf'
      simpa using Except.ok.inj hf'
    refine Sim.bind (hx.insert hs hq hv hne _ _ _) ?_
    intro y y' hy
    exact Sim.pure (h.set _ hy)
  quotientAt h i j := by
    refine Sim.bind (h.get _) ?_
    rintro x x' ⟨hx, _, hq, hv, _⟩
    exact hx.readKey hs hq _ _
  valueAt h i j := by
    refine Sim.bind (h.get _) ?_
    rintro x x' ⟨hx, _, hq, hv, _⟩
    exact hx.readValue hs hv _ _
  writeValue h i j v := by
    refine Sim.bind (h.get _) ?_
    rintro x x' ⟨hx, _, hq, hv, _⟩
    refine Sim.bind (hx.writeValue hs _ _ _) ?_
    intro y y' hy
    exact Sim.pure (h.set _ hy)
  eraseAt h i j := by
    refine Sim.bind (h.get _) ?_
    rintro x x' ⟨hx, _, hq, hv, _⟩
    refine Sim.bind (hx.remove hs _ _) ?_
    intro y y' hy
    exact Sim.pure (h.set _ hy)
  shrink h _ := Sim.ok h

theorem grpSerGroups_sim (h : GrpR s s' d) (n : Nat) : ∀ j, Sim Eq (grpSerGroups s d j n) (grpSerGroups s' d j n) := by
  induction n with
  | zero => intro j; exact Sim.ok rfl
  | succ n ih =>
    intro j
    unfold grpSerGroups
    refine Sim.bind (h.get j) ?_
    rintro x x' ⟨hx, _⟩
    refine Sim.bind hx.serialize ?_
    rintro bs _ rfl
    refine Sim.bind (ih _) ?_
    rintro r _ rfl
    exact Sim.pure rfl

end SC
