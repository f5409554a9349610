import Verif.Group.DebugTable
import Verif.Group.Serial
import Verif.Sep.DebugSerial
/-!
# `serialize` and `deserialize` of `group_chaining_table` in a debug build
-/
namespace SC

/-! ## Definitions -/

/-- `serialize(os, width, length)` of a packed array, grp:51-66 -/
def CoreDbg.serialize (x : CoreDbg) (w len : Nat) : Res (List Nat) := do
  ddcheck true (len = x.length)
  ddcheck true (w = x.width)
  let ps ← plainSerialize 64 x.plain 0 x.length
  let ds ← coreSerialize x.data w len
  return toBytes 8 x.width ++ toBytes 8 x.length ++ toBytes 8 x.blocks ++ ps ++ ds

/-- `deserialize(is, width, length)` of a packed array, grp:69-87; it starts with `clear()`, and all members are read, so that the previous
state does not matter and the tests of lines 77 and 83 hold -/
def CoreDbg.deserialize (c : GrpCfg) (w len : Nat) (is : List Nat) : Res (CoreDbg × List Nat) := do
  let (kw, is) ← takeBytes 8 is
  ddcheck true (ofBytes kw = w)
  let (l, is) ← takeBytes 8 is
  ddcheck true (ofBytes l = len)
  let (bl, is) ← takeBytes 8 is
  let (ps, is) ← plainDeserialize 64 (ofBytes l) is
  ddcheck true (ceilDiv (w * len) 64 ≤ ofBytes bl)
  let (d, is) ← coreDeserialize c w len is
  return ({ data := d, width := ofBytes kw, length := ofBytes l, blocks := ofBytes bl, plain := some ps }, is)

/-- `is.read(m_border_array.data(), ...)`, grp:416: `n` words -/
def wordsRead : Nat → List Nat → Res (List Nat × List Nat)
  | 0, is => .ok ([], is)
  | n + 1, is => do
    let (x, is) ← takeBytes 8 is
    let (r, is) ← wordsRead n is
    return (ofBytes x :: r, is)

/-- `serialize(os, buckets_per_group, keywidth, valuewidth)` of a group, grp:386-406; `m_groupsize` has one byte -/
def GroupDbg.serialize (x : GroupDbg) (bpg qw vw : Nat) : Res (List Nat) := do
  let head := toBytes 8 x.arr.length ++ x.arr.flatMap (toBytes 8) ++ toBytes 1 x.gs ++ toBytes 8 x.blen ++ toBytes 4 x.size
  if x.size = 0 then return head
  let b ← x.getBorder
  let bs ← b.write 0 (ceilDiv (x.size + 1 + bpg) 64)
  let ks ← x.keys.serialize qw x.size
  let vs ← x.vals.serialize vw x.size
  return head ++ bs ++ ks ++ vs

/-- `deserialize(is, buckets_per_group, keywidth, valuewidth)` of the group `x`, grp:409-431; the test of line 424 holds after
`clear()` -/
def GroupDbg.deserialize (c : GrpCfg) (x : GroupDbg) (bpg qw vw : Nat) (is : List Nat) : Res (GroupDbg × List Nat) := do
  let (al, is) ← takeBytes 8 is
  let (arr, is) ← wordsRead (ofBytes al) is
  let (gs, is) ← takeBytes 1 is
  let (bl, is) ← takeBytes 8 is
  let (sz, is) ← takeBytes 4 is
  let x := { x.clear with arr := arr, gs := ofBytes gs, blen := ofBytes bl, size := ofBytes sz }
  if x.size = 0 then return (x, is)
  let n := ceilDiv (x.size + 1 + bpg) 64
  let (w, is) ← borderRead 0 n (junkWord c) is
  let (ks, is) ← CoreDbg.deserialize c qw x.size is
  let (vs, is) ← CoreDbg.deserialize c vw x.size is
  return ({ x with keys := ks, vals := vs, border := some ⟨n, w⟩ }, is)

/-- the loop over the groups in `serialize`, grp:1431-1433, from group `j` on -/
def GrpDbg.serGroups (s : GrpDbg) (d : Dim) : Nat → Nat → Res (List Nat)
  | _, 0 => .ok []
  | j, n + 1 => do
    let x ← s.get j
    let bs ← x.serialize d.bpg d.qw d.vw
    let r ← s.serGroups d (j + 1) n
    return bs ++ r

/-- the loop over the groups in `deserialize`, grp:1469-1471, from group `j` on -/
def GrpDbg.deserGroups (c : GrpCfg) (d : Dim) : Nat → Nat → GrpDbg → List Nat → Res (GrpDbg × List Nat)
  | _, 0, s, is => .ok (s, is)
  | j, n + 1, s, is => do
    let x ← s.get j
    let (y, is) ← x.deserialize c d.bpg d.qw d.vw is
    GrpDbg.deserGroups c d (j + 1) n { s with grp := upd s.grp j y } is

/-- `os.write(m_bucketsizes, ...)`, grp:1438 -/
def GrpDbg.serSizes (s : GrpDbg) : List Nat → Res (List Nat)
  | [] => .ok []
  | b :: bs => do
    let r ← s.getRow b
    let rs ← s.serSizes bs
    return toBytes 4 r.size ++ rs

/-- `is.read(m_bucketsizes, ...)`, grp:1476 -/
def GrpDbg.deserSizes : List Nat → GrpDbg → List Nat → Res (GrpDbg × List Nat)
  | [], s, is => .ok (s, is)
  | b :: bs, s, is => do
    let r ← s.getRow b
    let (x, is) ← takeBytes 4 is
    GrpDbg.deserSizes bs { s with row := upd s.row b { r with size := ofBytes x } } is

/-- the loop over the buckets in `serialize`, grp:1439-1443 -/
def GrpDbg.serRows (s : GrpDbg) : List Nat → Res (List Nat)
  | [] => .ok []
  | b :: bs => do
    let r ← s.getRow b
    if r.size = 0 then s.serRows bs
    else
      let ks ← plainSerialize 64 r.keys 0 r.size
      let vs ← plainSerialize 64 r.vals 0 r.size
      let rs ← s.serRows bs
      return ks ++ vs ++ rs

/-- the first loop over the buckets in `deserialize`, grp:1477-1479 -/
def GrpDbgCfg.checkSizes (c : GrpDbgCfg) (d : Dim) (s : GrpDbg) : List Nat → Res Unit
  | [] => .ok ()
  | b :: bs => do
    let r ← s.getRow b
    let n ← c.ops.size s d b
    ddcheck true (r.size = n)
    c.checkSizes d s bs

/-- the loop over the entries of a bucket in `deserialize`, grp:1496-1504, from `i` on; `n` iterations are left -/
def GroupDbg.checkRow (c : GrpDbgCfg) (x : GroupDbg) (d : Dim) (r : PlainRow) (b : Nat) : (i n : Nat) → Res Unit
  | _, 0 => .ok ()
  | i, n + 1 => do
    let q ← x.readKey c.g (b % d.bpg) i d.qw
    let k ← (c.hash d.kw).invMap q b d.tb
    let v ← x.readValue c.g (b % d.bpg) i d.vw
    let pk ← cellRead r.keys i
    ddcheck true (k = pk)
    let pv ← cellRead r.vals i
    ddcheck true (v = pv)
    x.checkRow c d r b (i + 1) n

/-- the second loop over the buckets in `deserialize`, grp:1481-1506; the second component is `restored_elements`.  `realloc` is applied to
null pointers only, so that the new arrays contain what is read. -/
def GrpDbgCfg.deserRows (c : GrpDbgCfg) (d : Dim) : GrpDbg → (restored : Nat) → List Nat → List Nat → Res (GrpDbg × Nat × List Nat)
  | s, n, [], is => .ok (s, n, is)
  | s, n, b :: bs, is => do
    let r ← s.getRow b
    if r.size = 0 then c.deserRows d s n bs is
    else
      let (ks, is) ← plainDeserialize 64 r.size is
      let (vs, is) ← plainDeserialize 64 r.size is
      let x ← s.get (b / d.bpg)
      x.checkRow c d ⟨some ks, some vs, r.size⟩ b 0 r.size
      c.deserRows d { s with row := upd s.row b ⟨some ks, some vs, r.size⟩ } (n + r.size) bs is

/-- `serialize(os)`, grp:1420-1446, with the test of `remainder_width` (hash.hpp:57) -/
def GrpDbgCfg.serialize (c : GrpDbgCfg) (t : Tab GrpDbg Unit) : Res (List Nat) := do
  let head := toBytes 1 t.kw ++ toBytes 1 t.vw ++ toBytes 1 t.tb ++ toBytes 8 t.elems ++ toBytes 1 t.bpg
  if t.elems = 0 then return head
  ddcheck true (c.remOK t.kw t.tb = true)
  let gs ← t.store.serGroups (t.dim (grpDbgMap c)) 0 (grpCount t)
  let ss ← t.store.serSizes (List.range t.bucketCount)
  let rs ← t.store.serRows (List.range t.bucketCount)
  return head ++ gs ++ ss ++ rs

/-- `deserialize(is)`, grp:1449-1509 -/
def GrpDbgCfg.deserialize (c : GrpDbgCfg) (hk : HashKind) (t : Tab GrpDbg Unit) (is : List Nat) : Res (Tab GrpDbg Unit × List Nat) := do
  let t := t.clear (grpDbgMap c)
  let (kw, is) ← takeBytes 1 is
  let (vw, is) ← takeBytes 1 is
  hk.dbgNew (ofBytes kw)
  let (tb, is) ← takeBytes 1 is
  let (el, is) ← takeBytes 8 is
  let (bpg, is) ← takeBytes 1 is
  let t := { t with kw := ofBytes kw, vw := ofBytes vw, elems := ofBytes el, bpg := ofBytes bpg }
  if t.elems = 0 then return (t, is)
  let n ← shl64 1 (ofBytes tb)
  let t ← t.reserve (grpDbgMap c) n
  ddcheck true (t.tb = ofBytes tb)
  ddcheck true (ofBytes bpg = t.bpg)
  ddcheck true (c.remOK t.kw t.tb = true)
  let d := t.dim (grpDbgMap c)
  let (s, is) ← GrpDbg.deserGroups c.g d 0 (grpCount t) t.store is
  let (s, is) ← GrpDbg.deserSizes (List.range t.bucketCount) s is
  c.checkSizes d s (List.range t.bucketCount)
  let (s, restored, is) ← c.deserRows d s 0 (List.range t.bucketCount) is
  ddcheck true (t.elems = restored)
  return ({ t with store := s }, is)

/-! ## Round trip of arrays -/

theorem plainSerialize_holds {p : PlainB} {xs : List Nat} (h : HoldsP p xs) : ∀ n i, i + n = xs.length →
    plainSerialize 64 p i n = .ok ((xs.drop i).flatMap (toBytes 8)) := by
  intro n
  induction n with
  | zero =>
    intro i hi
    rw [List.drop_eq_nil_iff.mpr (by omega)]
    rfl
  | succ n ih =>
    intro i hi
    rw [plainSerialize, h.read (show i < xs.length by omega), ok_bind, ih (i + 1) (by omega), ok_bind, pure_eq_ok,
      List.drop_eq_getElem_cons (show i < xs.length by omega), List.flatMap_cons]

theorem plainDeserialize_words {xs : List Nat} (hlt : ∀ x ∈ xs, x < 2 ^ 64) (rest : List Nat) :
    plainDeserialize 64 xs.length (xs.flatMap (toBytes 8) ++ rest) = .ok (xs.map some, rest) := by
  induction xs with
  | nil => rfl
  | cons x xs ih =>
    rw [List.length_cons, plainDeserialize, List.flatMap_cons, List.append_assoc, takeBytes_append _ _ (toBytes_length _ _), ok_bind]
    simp only [ih (fun y hy => hlt y (by simp [hy])), ok_bind, pure_eq_ok, ofBytes8 (hlt x (by simp)), List.map_cons]

theorem holds_map (xs : List Nat) : HoldsP (some (xs.map some)) xs := ⟨_, rfl, by simp⟩

theorem wordsRead_words {xs : List Nat} (hlt : ∀ x ∈ xs, x < 2 ^ 64) (rest : List Nat) :
    wordsRead xs.length (xs.flatMap (toBytes 8) ++ rest) = .ok (xs, rest) := by
  induction xs with
  | nil => rfl
  | cons x xs ih =>
    rw [List.length_cons, wordsRead, List.flatMap_cons, List.append_assoc, takeBytes_append _ _ (toBytes_length _ _), ok_bind]
    simp only [ih (fun y hy => hlt y (by simp [hy])), ok_bind, pure_eq_ok, ofBytes8 (hlt x (by simp))]

theorem CoreRep.bound {sp : Bool} {b : VarB} {w : Nat} {xs : List Nat} (h : CoreRep sp b w xs) : ∀ x ∈ xs, x < 2 ^ w := by
  intro x hx
  obtain ⟨m, _, _, _, _, h5⟩ := h
  obtain ⟨i, hi, rfl⟩ := List.getElem_of_mem hx
  rw [← h5 i hi]
  exact readBits_lt _ _ _

theorem pow_le_64 {w x : Nat} (h : w ≤ 64) (hx : x < 2 ^ w) : x < 2 ^ 64 := Nat.lt_of_lt_of_le hx (Nat.pow_le_pow_right (by omega) h)

/-- A packed array is read back with its copy. -/
theorem BitsRep.ser {g : GrpCfg} {sp : Bool} {x : CoreDbg} {w : Nat} {xs : List Nat} (h : BitsRep sp x w xs) (hw : w ≤ 64)
    (hl : xs.length < 2 ^ 32) :
    ∃ bytes, x.serialize w xs.length = .ok bytes ∧ ∀ rest, ∃ y, CoreDbg.deserialize g w xs.length (bytes ++ rest) = .ok (y, rest) ∧
      BitsRep false y w xs := by
  have hlt : ∀ x ∈ xs, x < 2 ^ 64 := fun x hx => pow_le_64 hw (h.data.bound x hx)
  obtain ⟨ds, d1, d2⟩ := core_ser (c := g) h.data
  have hbl : x.blocks < 2 ^ 64 := by
    have h1 := h.ok.top
    have h2 : w * 2 ^ 33 ≤ 64 * 2 ^ 33 := Nat.mul_le_mul_right _ hw
    omega
  have hcd : ceilDiv (w * xs.length) 64 ≤ x.blocks := by
    have := h.ok.blocks
    unfold ceilDiv
    rw [Nat.mul_comm w]
    omega
  refine ⟨toBytes 8 w ++ toBytes 8 xs.length ++ toBytes 8 x.blocks ++ xs.flatMap (toBytes 8) ++ ds, ?_, fun rest => ?_⟩
  · have hps := plainSerialize_holds h.ok.plain xs.length 0 (by omega)
    rw [List.drop_zero] at hps
    unfold CoreDbg.serialize
    rw [h.ok.length, h.ok.width]
    simp only [ddcheck_ok, ok_bind, hps, d1, pure_eq_ok]
  · obtain ⟨b', f1, f2⟩ := d2 rest
    refine ⟨⟨b', w, xs.length, x.blocks, some (xs.map some)⟩, ?_, f2, rfl, rfl, h.ok.blocks, h.ok.top, holds_map _⟩
    unfold CoreDbg.deserialize
    simp only [List.append_assoc, takeBytes_append _ _ (toBytes_length _ _), ok_bind, ofBytes8 (show w < 2 ^ 64 by omega), ddcheck_ok,
      ofBytes8 (show xs.length < 2 ^ 64 by omega), ofBytes8 hbl, plainDeserialize_words hlt, ddcheck_ok hcd, f1, pure_eq_ok]

theorem Border.Tail.congr {b b' : Border} {n : Nat} (h : b.Tail n) (hl : b'.len = b.len) (hw : ∀ i < b.len, b'.w i = b.w i) :
    b'.Tail n := by
  intro j h1 h2
  rw [hl] at h2
  have := h j h1 h2
  unfold Border.bit at this ⊢
  rw [hw _ (by omega)]
  exact this

/-- A group is read back, whatever the previous state `x0`. -/
theorem SlotDbg.ser {g : GrpCfg} {sp : Bool} {x : GroupDbg} {bpg qw vw : Nat} {cs : Cont} (h : SlotDbg sp x bpg qw vw cs)
    (hb : bpg ≤ 255) (hq : qw ≤ 64) (hv : vw ≤ 64) :
    ∃ bytes, x.serialize bpg qw vw = .ok bytes ∧ ∀ x0 rest, ∃ y, GroupDbg.deserialize g x0 bpg qw vw (bytes ++ rest) = .ok (y, rest) ∧
      SlotDbg false y bpg qw vw cs := by
  rcases h with ⟨h, h0⟩ | ⟨h, hle, hpos⟩
  · refine ⟨toBytes 8 0 ++ toBytes 1 x.gs ++ toBytes 8 x.blen ++ toBytes 4 0, ?_, fun x0 rest => ⟨{ x0.clear with
      arr := [], gs := ofBytes (toBytes 1 x.gs), blen := ofBytes (toBytes 8 x.blen), size := 0 }, ?_, .inl ⟨⟨rfl, rfl, rfl, rfl, rfl, rfl, rfl⟩, h0⟩⟩⟩
    · unfold GroupDbg.serialize
      simp only [h.size, h.arr, if_true, pure_eq_ok, List.length_nil, List.flatMap_nil, List.append_nil]
    · unfold GroupDbg.deserialize
      simp only [List.append_assoc, takeBytes_append _ _ (toBytes_length _ _), ok_bind, ofBytes8 (show 0 < 2 ^ 64 by omega),
        ofBytes4 (show 0 < 2 ^ 32 by omega), wordsRead, if_true, pure_eq_ok]
  · obtain ⟨b, hbb, hB, hT⟩ := h.ends.border
    have hsz := h.ends.size
    have hl := h.ends.lt
    obtain ⟨bs, e1, e2⟩ := Border.write_ok hB.word b.len 0 (by omega)
    obtain ⟨ks, k1, k2⟩ := h.keys.ser (g := g) hq (by rw [List.length_map]; exact hl)
    obtain ⟨vs, v1, v2⟩ := h.vals.ser (g := g) hv (by rw [List.length_map]; exact hl)
    rw [List.length_map] at k1 k2 v1 v2
    have h0 : x.size ≠ 0 := by omega
    have hn : ceilDiv (x.size + 1 + bpg) 64 = b.len := by rw [hB.len, hsz]
    have harr : ∀ a ∈ x.arr, a < 2 ^ 64 := by
      intro a ha
      rw [h.ends.arr] at ha
      obtain ⟨i, hi, rfl⟩ := List.mem_map.mp ha
      have := flat_le (cs := cs) (show i + 1 ≤ bpg by have := List.mem_range.mp hi; omega)
      omega
    have hal : x.arr.length = bpg := by rw [h.ends.arr]; simp
    have hbl : x.blen < 2 ^ 64 := by rw [h.ends.blen]; unfold ceilDiv; omega
    have hgs : x.gs < 256 := by rw [h.ends.gs]; omega
    refine ⟨toBytes 8 x.arr.length ++ x.arr.flatMap (toBytes 8) ++ toBytes 1 x.gs ++ toBytes 8 x.blen ++ toBytes 4 x.size ++ bs ++ ks ++ vs,
      ?_, fun x0 rest => ?_⟩
    · unfold GroupDbg.serialize
      simp only [if_neg h0, GroupDbg.getBorder, hbb, ok_bind, hn, e1]
      rw [hsz, k1, ok_bind, v1]
      rfl
    · obtain ⟨w', f1, f2, _⟩ := e2 (junkWord g) (ks ++ (vs ++ rest))
      obtain ⟨kb, g1, g2⟩ := k2 (vs ++ rest)
      obtain ⟨vb, g3, g4⟩ := v2 rest
      refine ⟨⟨x.size, kb, vb, some ⟨b.len, w'⟩, x.blen, x.arr, x.gs⟩, ?_, .inr ⟨⟨⟨hsz, hl, h.ends.out, ?_, h.ends.blen, h.ends.arr, h.ends.gs⟩,
        g2, g4⟩, hle, hpos⟩⟩
      · unfold GroupDbg.deserialize
        simp only [List.append_assoc, takeBytes_append _ _ (toBytes_length _ _), ok_bind, ofBytes8 (show x.arr.length < 2 ^ 64 by omega),
          wordsRead_words harr, ofBytes1 hgs, ofBytes8 hbl, ofBytes4 (show x.size < 2 ^ 32 by omega), if_neg h0, hn, f1]
        rw [hsz, g1]
        simp only [ok_bind, g3, pure_eq_ok]
      · exact ⟨_, rfl, hB.congr rfl (fun i hi => f2 i (by omega) (by omega)), hT.congr rfl (fun i hi => f2 i (by omega) (by omega))⟩

/-! ## Round trip of the table -/

theorem dbgSerGroups_ok {g : GrpCfg} {sp : Bool} {s : GrpDbg} {d : Dim} {cont : Cont}
    (h : ∀ j < s.n, SlotDbg sp (s.grp j) d.bpg d.qw d.vw (localCont d.bpg cont j)) (hb : d.bpg ≤ 255) (hq : d.qw ≤ 64) (hv : d.vw ≤ 64) :
    ∀ n j, j + n ≤ s.n → ∃ bytes, s.serGroups d j n = .ok bytes ∧ ∀ (s0 : GrpDbg) rest, s0.n = s.n →
      ∃ s1, GrpDbg.deserGroups g d j n s0 (bytes ++ rest) = .ok (s1, rest) ∧ s1.n = s.n ∧ s1.cnt = s0.cnt ∧ s1.row = s0.row ∧
        (∀ i, j ≤ i → i < j + n → SlotDbg false (s1.grp i) d.bpg d.qw d.vw (localCont d.bpg cont i)) ∧
        ∀ i, i < j → s1.grp i = s0.grp i := by
  intro n
  induction n with
  | zero =>
    intro j _
    exact ⟨[], rfl, fun s0 rest h0 => ⟨s0, rfl, h0, rfl, rfl, fun i h1 h2 => absurd h2 (by omega), fun _ _ => rfl⟩⟩
  | succ n ih =>
    intro j hj
    obtain ⟨bytes, e1, e2⟩ := ih (j + 1) (by omega)
    obtain ⟨bs, f1, f2⟩ := (h j (by omega)).ser (g := g) hb hq hv
    have hlt : j < s.n := by omega
    refine ⟨bs ++ bytes, by simp only [GrpDbg.serGroups, GrpDbg.get, if_pos hlt, ok_bind, f1, e1, pure_eq_ok], ?_⟩
    intro s0 rest hs0
    obtain ⟨y, g1, g2⟩ := f2 (s0.grp j) (bytes ++ rest)
    obtain ⟨s1, r1, r2, r5, r6, r3, r4⟩ := e2 { s0 with grp := upd s0.grp j y } rest hs0
    refine ⟨s1, ?_, r2, r5, r6, ?_, ?_⟩
    · have hlt0 : j < s0.n := by omega
      rw [List.append_assoc]
      simp only [GrpDbg.deserGroups, GrpDbg.get, if_pos hlt0, ok_bind, g1]
      exact r1
    · intro i h1 h2
      by_cases he : i = j
      · rw [r4 i (by omega), he]
        show SlotDbg false (upd s0.grp j y j) _ _ _ _
        rw [upd_same]; exact g2
      · exact r3 i (by omega) (by omega)
    · intro i hi
      rw [r4 i (by omega)]
      exact upd_other _ _ (by omega)

theorem dbgSizes_ok {s : GrpDbg} {m : Nat} (hc : s.cnt = m) (hlt : ∀ b < m, (s.row b).size < 2 ^ 32) :
    ∀ bs : List Nat, (∀ b ∈ bs, b < m) → bs.Nodup → ∃ bytes, s.serSizes bs = .ok bytes ∧ ∀ (s0 : GrpDbg) rest, s0.cnt = m →
      ∃ s1, GrpDbg.deserSizes bs s0 (bytes ++ rest) = .ok (s1, rest) ∧ s1.n = s0.n ∧ s1.cnt = m ∧ s1.grp = s0.grp ∧
        (∀ b ∈ bs, s1.row b = { s0.row b with size := (s.row b).size }) ∧ ∀ b, b ∉ bs → s1.row b = s0.row b := by
  intro bs
  induction bs with
  | nil =>
    intro _ _
    exact ⟨[], rfl, fun s0 rest h0 => ⟨s0, rfl, rfl, h0, rfl, by simp, fun _ _ => rfl⟩⟩
  | cons b bs ih =>
    intro hbs hnd
    obtain ⟨hnb, hnd'⟩ := List.nodup_cons.mp hnd
    obtain ⟨bytes, e1, e2⟩ := ih (fun x hx => hbs x (by simp [hx])) hnd'
    have hb := hbs b (by simp)
    have hg : ∀ s0 : GrpDbg, s0.cnt = m → s0.getRow b = .ok (s0.row b) := by
      intro s0 h0; unfold GrpDbg.getRow; rw [h0, if_pos hb]
    refine ⟨toBytes 4 (s.row b).size ++ bytes, by simp only [GrpDbg.serSizes, hg s hc, ok_bind, e1, pure_eq_ok], ?_⟩
    intro s0 rest h0
    obtain ⟨s1, f1, f2, f3, f4, f5, f6⟩ := e2 { s0 with row := upd s0.row b { s0.row b with size := (s.row b).size } } rest h0
    refine ⟨s1, ?_, f2, f3, f4, ?_, ?_⟩
    · rw [List.append_assoc]
      simp only [GrpDbg.deserSizes, hg s0 h0, ok_bind, takeBytes_append _ _ (toBytes_length _ _), ofBytes4 (hlt b hb)]
      exact f1
    · intro x hx
      by_cases he : x = b
      · subst he
        rw [f6 x hnb]
        exact upd_same _ _ _
      · have hx' : x ∈ bs := (List.mem_cons.mp hx).resolve_left he
        rw [f5 x hx']
        show PlainRow.mk (upd s0.row b _ x).keys (upd s0.row b _ x).vals _ = _
        rw [upd_other _ _ he]
    · intro x hx
      have h1 : x ∉ bs := fun h => hx (by simp [h])
      have h2 : x ≠ b := fun h => hx (by simp [h])
      rw [f6 x h1]
      exact upd_other _ _ h2

variable {c : GrpDbgCfg} {sp : Bool} {kw vw lo hi : Nat} {s : GrpDbg} {d : Dim} {cont : Cont}

theorem slots_size {g : GrpCfg} (hs : ∀ j < s.n, SlotDbg sp (s.grp j) d.bpg d.qw d.vw (localCont d.bpg cont j))
    (hn : s.n = 2 ^ d.tb / d.bpg + 1) (hp : 1 ≤ d.bpg) (hl : d.bpg ≤ 255) {b : Nat} (hb : b < 2 ^ d.tb) :
    s.get (b / d.bpg) = .ok (s.grp (b / d.bpg)) ∧ (s.grp (b / d.bpg)).bucketsize g (b % d.bpg) = .ok (cont b).length := by
  have h1 : b / d.bpg < s.n := by
    have := Nat.div_le_div_right (c := d.bpg) (Nat.le_of_lt hb)
    omega
  obtain ⟨_, h4⟩ := div_mod_bpg (b := b) hp
  have hbs := (hs _ h1).bucketsize (g := g) hl h4
  rw [local_at hp] at hbs
  exact ⟨by unfold GrpDbg.get; rw [if_pos h1], hbs⟩

theorem checkSizes_ok (hs : ∀ j < s.n, SlotDbg sp (s.grp j) d.bpg d.qw d.vw (localCont d.bpg cont j))
    (hn : s.n = 2 ^ d.tb / d.bpg + 1) (hc : s.cnt = 2 ^ d.tb) (hp : 1 ≤ d.bpg) (hl : d.bpg ≤ 255) :
    ∀ bs : List Nat, (∀ b ∈ bs, b < 2 ^ d.tb ∧ (s.row b).size = (cont b).length) → c.checkSizes d s bs = .ok () := by
  intro bs
  induction bs with
  | nil => intro _; rfl
  | cons b bs ih =>
    intro h
    obtain ⟨hb, hsz⟩ := h b (by simp)
    obtain ⟨h1, h2⟩ := slots_size (g := c.g) hs hn hp hl hb
    rw [GrpDbgCfg.checkSizes, GrpDbg.getRow, hc, if_pos hb, ok_bind]
    simp only [GrpDbgCfg.ops, h1, ok_bind, h2, hsz, ddcheck_ok]
    exact ih (fun x hx => h x (by simp [hx]))

theorem GroupDbgRep.checkRow {x : GroupDbg} {cs : Cont} {b : Nat} {r : PlainRow} (h : GroupDbgRep sp x d.bpg d.qw d.vw cs)
    (hb : d.bpg ≤ 255) (hq : 1 ≤ d.qw) (hv : 1 ≤ d.vw)
    (hg : b % d.bpg < d.bpg) (hr : RowRep (c.hash d.kw) d.tb b r (cs (b % d.bpg))) : ∀ (n i : Nat),
    i + n = (cs (b % d.bpg)).length → GroupDbg.checkRow c x d r b i n = .ok () := by
  intro n
  induction n with
  | zero => intro i _; rfl
  | succ n ih =>
    intro i hi
    have hi' : i < (cs (b % d.bpg)).length := by omega
    obtain ⟨k, k1, k2⟩ := hr.key hi'
    simp only [GroupDbg.checkRow]
    rw [h.readKey hb hq hg hi', ok_bind, k1, ok_bind, h.readValue hb hv hg hi', ok_bind, k2, ok_bind, ddcheck_ok rfl, ok_bind,
      hr.val hi', ok_bind, ddcheck_ok rfl, ok_bind]
    exact ih (i + 1) (by omega)

/-- the entries of a bucket have as many bits as the arrays allow -/
theorem GrpDbgRep.fits (h : GrpDbgRep sp c kw lo hi s d cont) (hp : 1 ≤ d.bpg) {b : Nat} (hb : b < 2 ^ d.tb) :
    (∀ e ∈ cont b, e.1 < 2 ^ d.qw ∧ e.2 < 2 ^ d.vw) ∧ (cont b).length ≤ 255 := by
  obtain ⟨g1, _, _⟩ := h.get hb
  obtain ⟨_, h4⟩ := div_mod_bpg (b := b) hp
  have hs := h.grp _ g1
  constructor
  · intro e he
    obtain ⟨i, hi, rfl⟩ := List.getElem_of_mem he
    have hi' : i < (localCont d.bpg cont (b / d.bpg) (b % d.bpg)).length := by rw [local_at hp]; exact hi
    have hL := hs.live hi'
    obtain ⟨f1, f2⟩ := flat_get h4 hi'
    have hm : (cont b)[i] ∈ flat (localCont d.bpg cont (b / d.bpg)) d.bpg := by
      have : (cont b)[i] = (localCont d.bpg cont (b / d.bpg) (b % d.bpg))[i] := by simp only [local_at hp]
      rw [this, ← f2]
      exact List.getElem_mem _
    exact ⟨hL.keys.data.bound _ (List.mem_map_of_mem hm), hL.vals.data.bound _ (List.mem_map_of_mem hm)⟩
  · have h6 := flat_le (cs := localCont d.bpg cont (b / d.bpg)) (show b % d.bpg + 1 ≤ d.bpg by omega)
    rw [flat_succ, local_at hp] at h6
    have := hs.size.2
    omega

theorem dbgRows_ok {W : Nat} (hO : GrpDbgOK c kw lo hi) (hd : GoodDim W d) (h : GrpDbgRep sp c kw lo hi s d cont) :
    ∀ bs : List Nat, (∀ b ∈ bs, b < 2 ^ d.tb) → bs.Nodup → ∃ bytes, s.serRows bs = .ok bytes ∧
      ∀ (s0 : GrpDbg) (n : Nat) (rest : List Nat), s0.cnt = 2 ^ d.tb → s0.n = 2 ^ d.tb / d.bpg + 1 →
        (∀ j < s0.n, SlotDbg false (s0.grp j) d.bpg d.qw d.vw (localCont d.bpg cont j)) →
        (∀ b ∈ bs, (s0.row b).size = (cont b).length) →
        ∃ s1, c.deserRows d s0 n bs (bytes ++ rest) = .ok (s1, n + lenSum cont bs, rest) ∧ s1.n = s0.n ∧ s1.cnt = s0.cnt ∧
          s1.grp = s0.grp ∧ (∀ b ∈ bs, (cont b ≠ [] → RowRep (c.hash d.kw) d.tb b (s1.row b) (cont b)) ∧
            (cont b = [] → s1.row b = s0.row b)) ∧ ∀ b, b ∉ bs → s1.row b = s0.row b := by
  have hp := hd.bpg_pos
  have hl := hd.bpg_le
  obtain ⟨d1, d2, d3, d4⟩ := h.dim
  intro bs
  induction bs with
  | nil =>
    intro _ _
    exact ⟨[], rfl, fun s0 n rest _ _ _ _ => ⟨s0, rfl, rfl, rfl, rfl, by simp, fun _ _ => rfl⟩⟩
  | cons b bs ih =>
    intro hlt hnd
    obtain ⟨hnb, hnd'⟩ := List.nodup_cons.mp hnd
    obtain ⟨bytes, e1, e2⟩ := ih (fun x hx => hlt x (by simp [hx])) hnd'
    have hb := hlt b (by simp)
    have hsum : lenSum cont (b :: bs) = (cont b).length + lenSum cont bs := by simp [lenSum]
    obtain ⟨hrow, _⟩ := h.row b hb
    have hg : ∀ s0 : GrpDbg, s0.cnt = 2 ^ d.tb → s0.getRow b = .ok (s0.row b) := by
      intro s0 h0; unfold GrpDbg.getRow; rw [h0, if_pos hb]
    by_cases hc : cont b = []
    · have hz : (s.row b).size = 0 := by rw [hrow.size, hc]; rfl
      refine ⟨bytes, by simp only [GrpDbg.serRows, hg s h.cnt, ok_bind, hz, if_true, e1], ?_⟩
      intro s0 n rest hcnt hn hs hsz
      obtain ⟨s1, f1, f2, f3, f4, f5, f6⟩ := e2 s0 n rest hcnt hn hs (fun x hx => hsz x (by simp [hx]))
      have hz0 : (s0.row b).size = 0 := by rw [hsz b (by simp), hc]; rfl
      refine ⟨s1, ?_, f2, f3, f4, ?_, ?_⟩
      · rw [hsum, hc]
        simp only [GrpDbgCfg.deserRows, hg s0 hcnt, ok_bind, hz0, if_true, f1, List.length_nil, Nat.zero_add]
      · intro x hx
        by_cases he : x = b
        · subst he
          exact ⟨fun h => absurd hc h, fun _ => f6 x hnb⟩
        · exact f5 x ((List.mem_cons.mp hx).resolve_left he)
      · intro x hx
        exact f6 x (fun h => hx (by simp [h]))
    · have hpos : 0 < (cont b).length := List.length_pos_iff.mpr hc
      obtain ⟨hfit, _⟩ := h.fits hp hb
      obtain ⟨ks, k1, k2⟩ := hrow.keys hc
      have kl : ks.length = (cont b).length := by simpa using (congrArg List.length k2).symm
      have hks : ∀ k ∈ ks, k < 2 ^ 64 := by
        intro k hk
        have : (Except.ok k : Res Nat) ∈ (cont b).map (fun e => (c.hash d.kw).invMap e.1 b d.tb) := by
          rw [k2]; exact List.mem_map_of_mem hk
        obtain ⟨e, he, hek⟩ := List.mem_map.mp this
        obtain ⟨k', q1, q2⟩ := (hO.inv d.tb d3 d4).1.inv e.1 b (by rw [← d1]; exact (hfit e he).1) hb
        rw [← d2] at q1
        rw [q1] at hek
        cases hek
        exact pow_le_64 (by rw [← d2]; exact hd.kw_le) q2
      have hvs : ∀ v ∈ (cont b).map Prod.snd, v < 2 ^ 64 := by
        intro v hv
        obtain ⟨e, he, rfl⟩ := List.mem_map.mp hv
        exact pow_le_64 hd.vw_le (hfit e he).2
      have p1 := plainSerialize_holds k1 ks.length 0 (by omega)
      have p2 := plainSerialize_holds (hrow.vals hc) (cont b).length 0 (by simp)
      rw [List.drop_zero] at p1 p2
      rw [kl] at p1
      refine ⟨ks.flatMap (toBytes 8) ++ ((cont b).map Prod.snd).flatMap (toBytes 8) ++ bytes, ?_, ?_⟩
      · simp only [GrpDbg.serRows, hg s h.cnt, ok_bind, hrow.size, if_neg (show ¬ (cont b).length = 0 by omega), p1, p2, e1, pure_eq_ok]
      · intro s0 n rest hcnt hn hs hsz
        have hs0 := hsz b (by simp)
        have q1 := plainDeserialize_words hks (((cont b).map Prod.snd).flatMap (toBytes 8) ++ (bytes ++ rest))
        have q2 := plainDeserialize_words hvs (bytes ++ rest)
        rw [kl] at q1
        rw [List.length_map] at q2
        have hr : RowRep (c.hash d.kw) d.tb b ⟨some (ks.map some), some (((cont b).map Prod.snd).map some), (cont b).length⟩ (cont b) :=
          ⟨rfl, fun _ => ⟨ks, holds_map _, k2⟩, fun _ => holds_map _⟩
        obtain ⟨x1, x2⟩ := slots_size (g := c.g) hs hn hp (by omega) hb
        obtain ⟨_, h4⟩ := div_mod_bpg (b := b) hp
        have hj : b / d.bpg < s0.n := by
          have := Nat.div_le_div_right (c := d.bpg) (Nat.le_of_lt hb)
          omega
        have hL := (hs _ hj).live (g := b % d.bpg) (i := 0) (by rw [local_at hp]; exact hpos)
        have hchk := hL.checkRow (c := c) (b := b) (by omega) hd.qw_pos hd.vw_pos h4 (by rw [local_at hp]; exact hr) (cont b).length 0
          (by rw [local_at hp]; omega)
        generalize hrw : PlainRow.mk (some (ks.map some)) (some (((cont b).map Prod.snd).map some)) (cont b).length = rw0 at hr hchk
        obtain ⟨s1, f1, f2, f3, f4, f5, f6⟩ := e2 { s0 with row := upd s0.row b rw0 }
          (n + (cont b).length) rest hcnt hn hs (by
          intro x hx
          have : x ≠ b := fun e => hnb (e ▸ hx)
          show (upd s0.row b _ x).size = _
          rw [upd_other _ _ this]
          exact hsz x (by simp [hx]))
        refine ⟨s1, ?_, f2, f3, f4, ?_, ?_⟩
        · simp only [GrpDbgCfg.deserRows, hg s0 hcnt, ok_bind, hs0, if_neg (show ¬ (cont b).length = 0 by omega), List.append_assoc, q1, q2,
            x1, hrw, hchk]
          rw [hsum, ← Nat.add_assoc]
          exact f1
        · intro x hx
          by_cases he : x = b
          · subst he
            refine ⟨fun _ => ?_, fun e => absurd e hc⟩
            rw [f6 x hnb]
            show RowRep _ _ _ (upd s0.row x _ x) _
            rw [upd_same]; exact hr
          · obtain ⟨m1, m2⟩ := f5 x ((List.mem_cons.mp hx).resolve_left he)
            refine ⟨m1, fun e => (m2 e).trans ?_⟩
            exact upd_other _ _ he
        · intro x hx
          have h1 : x ∉ bs := fun h => hx (by simp [h])
          have h2 : x ≠ b := fun h => hx (by simp [h])
          rw [f6 x h1]
          exact upd_other _ _ h2

theorem grpDbgDeser_eq {hk : HashKind} {t0 t1 : Tab GrpDbg Unit} {s1 s2 s3 : GrpDbg} {tb el bpg : Nat} {r ss rs rest : List Nat}
    (h1 : kw < 256) (h2 : vw < 256) (h3 : tb < 64) (h4 : el < 2 ^ 64) (h5 : bpg < 256) (h0 : el ≠ 0) (hnew : hk.dbgNew kw = .ok ())
    (h6 : Tab.reserve (grpDbgMap c) { t0.clear (grpDbgMap c) with kw := kw, vw := vw, elems := el, bpg := bpg } (2 ^ tb) = .ok t1)
    (htb : t1.tb = tb) (hbpg : bpg = t1.bpg) (hel : t1.elems = el) (hrem : c.remOK t1.kw t1.tb = true)
    (h7 : GrpDbg.deserGroups c.g (t1.dim (grpDbgMap c)) 0 (grpCount t1) t1.store (r ++ (ss ++ (rs ++ rest))) = .ok (s1, ss ++ (rs ++ rest)))
    (h8 : GrpDbg.deserSizes (List.range t1.bucketCount) s1 (ss ++ (rs ++ rest)) = .ok (s2, rs ++ rest))
    (h9 : c.checkSizes (t1.dim (grpDbgMap c)) s2 (List.range t1.bucketCount) = .ok ())
    (h10 : c.deserRows (t1.dim (grpDbgMap c)) s2 0 (List.range t1.bucketCount) (rs ++ rest) = .ok (s3, el, rest)) :
    c.deserialize hk t0 (toBytes 1 kw ++ toBytes 1 vw ++ toBytes 1 tb ++ toBytes 8 el ++ toBytes 1 bpg ++ r ++ ss ++ rs ++ rest) =
      .ok ({ t1 with store := s3 }, rest) := by
  have e1 : shl64 1 tb = .ok (2 ^ tb) := by
    unfold shl64
    rw [if_pos h3, Nat.shiftLeft_eq, Nat.one_mul, Nat.mod_eq_of_lt (Nat.pow_lt_pow_right (by omega) h3)]
  unfold GrpDbgCfg.deserialize
  simp only [List.append_assoc, takeBytes_append _ _ (toBytes_length _ _), ok_bind, ofBytes1 h1, ofBytes1 h2, ofBytes1 (show tb < 256 by omega),
    ofBytes8 h4, ofBytes1 h5, if_neg h0, e1, h6, hnew, ddcheck_ok htb, ddcheck_ok hbpg, ddcheck_ok hrem, h7, h8, h9, h10, ddcheck_ok hel,
    pure_eq_ok]

/-- In a debug build, serialising a table and reading the bytes into any table fails no assertion and gives a table with the same contents;
the arrays need not have a spare word any more.  The number of buckets of a table without entries is not restored. -/
theorem grpDbgSerialize_ok {hk : HashKind} {e : GrpCfg} {l : List (Nat × Nat)} (hO : GrpDbgOK c kw (hk.lo kw 64) (hk.width kw - 1))
    (hnew : hk.dbgNew kw = .ok ()) (L : Laws (grpDbgMapE c e) (grpDbgPar sp c hk kw vw)) {t : Tab GrpDbg Unit}
    (h : Inv (grpDbgMap c) (grpDbgPar sp c hk kw vw) t l) (hsz : t.size < 2 ^ 64) :
    ∃ bytes, c.serialize t = .ok bytes ∧ ∀ (t0 : Tab GrpDbg Unit) (rest : List Nat),
      ∃ t', c.deserialize hk t0 (bytes ++ rest) = .ok (t', rest) ∧ Inv (grpDbgMap c) (grpDbgPar false c hk kw vw) t' l ∧
        t'.bpg = t.bpg ∧ (t.size ≠ 0 → t'.tb = t.tb) := by
  have hkw : kw ≤ 64 := L.kw_le
  have hvw : vw ≤ 64 := L.vw_le
  by_cases he : t.elems = 0
  · -- no entries
    have hh : t.kw = kw ∧ t.vw = vw ∧ 1 ≤ t.bpg ∧ t.bpg ≤ 64 ∧ t.tb < 64 ∧ l = [] := by
      rcases h with ⟨h1, h2, h3, h4, h5, h6, h7, _⟩ | ⟨cont, o, full, hl, hp⟩
      · exact ⟨h1, h2, h3, h4, by omega, h7⟩
      · refine ⟨hl.tkw, hl.tvw, hl.bpg_pos, hl.bpg_le, Nat.lt_of_le_of_lt hl.hi L.hi_lt, ?_⟩
        have h1 := hl.elems
        rw [he] at h1
        have h2 := List.eq_nil_of_length_eq_zero h1.symm
        rw [h2] at hp
        exact hp.eq_nil
    obtain ⟨h1, h2, h3, h4, h5, h6⟩ := hh
    refine ⟨_, by unfold GrpDbgCfg.serialize; rw [if_pos he]; rfl, fun t0 rest => ?_⟩
    refine ⟨{ t0.clear (grpDbgMap c) with kw := t.kw, vw := t.vw, elems := 0, bpg := t.bpg }, ?_, ?_, rfl, fun h => absurd he h⟩
    · unfold GrpDbgCfg.deserialize
      rw [he]
      rw [← h1] at hnew
      simp only [List.append_assoc, takeBytes_append _ _ (toBytes_length _ _), ok_bind, ofBytes1 (show t.kw < 256 by omega),
        ofBytes1 (show t.vw < 256 by omega), ofBytes8 (show 0 < 2 ^ 64 by omega), ofBytes1 (show t.bpg < 256 by omega),
        if_true, pure_eq_ok, hnew]
    · exact .inl ⟨h1, h2, h3, h4, rfl, rfl, h6, rfl, 0, fun _ => false, rfl, rfl⟩
  · rcases h with ⟨_, _, _, _, _, h6, _⟩ | ⟨cont, o, full, hl, hp⟩
    · exact absurd h6 he
    · have ho : o = [] := hl.orep.1
      subst ho
      have htb : t.tb < 64 := Nat.lt_of_le_of_lt hl.hi L.hi_lt
      have htkw : t.kw = kw := hl.tkw
      have htvw : t.vw = vw := hl.tvw
      have hl' : Live (grpDbgMapE c e) (grpDbgPar sp c hk kw vw) t cont [] full := Live_withErase.mpr hl
      have hgood : GoodDim 64 (t.dim (grpDbgMap c)) := by
        have := hl'.good L
        rw [dim_withErase] at this
        exact this
      have hbc := hl'.bc L
      have hrem : c.remOK t.kw t.tb = true := by rw [htkw]; exact (hO.inv t.tb hl.lo hl.hi).2
      have hR : GrpDbgRep sp c kw (hk.lo kw 64) (hk.width kw - 1) t.store (t.dim (grpDbgMap c)) cont := hl.rep.1
      have hqw : (t.dim (grpDbgMap c)).qw ≤ 64 := Nat.le_trans hgood.qw_le hgood.kw_le
      have hp1 := hgood.bpg_pos
      have hp2 := hgood.bpg_le
      have hcnt : grpCount t = t.store.n := by
        have := hl'.tb_pos L
        unfold grpCount
        rw [if_neg (by omega), hbc, hR.n]; rfl
      have hlen : ∀ b < 2 ^ t.tb, (t.store.row b).size = (cont b).length := fun b hb => (hR.row b hb).1.size
      have hbs : ∀ b ∈ List.range t.bucketCount, b < 2 ^ t.tb := by
        intro b hb; rw [hbc] at hb; exact List.mem_range.mp hb
      obtain ⟨r, e1, e2⟩ := dbgSerGroups_ok (g := c.g) hR.grp (by omega) hqw hgood.vw_le (grpCount t) 0 (by omega)
      obtain ⟨ss, s1, s2⟩ := dbgSizes_ok (m := 2 ^ t.tb) hR.cnt (by
        intro b hb
        have := (hR.fits hp1 (b := b) hb).2
        rw [hlen b hb]; omega) (List.range t.bucketCount) hbs List.nodup_range
      obtain ⟨rs, r1, r2⟩ := dbgRows_ok hO hgood hR (List.range t.bucketCount) hbs List.nodup_range
      refine ⟨_, by unfold GrpDbgCfg.serialize; rw [if_neg he, ddcheck_ok hrem, ok_bind, e1, ok_bind, s1, ok_bind, r1]; rfl, fun t0 rest => ?_⟩
      obtain ⟨t1, full1, g1, g2, g3, g4⟩ := reserveEmpty_ok L
        (t := { t0.clear (grpDbgMap c) with kw := t.kw, vw := t.vw, bpg := t.bpg }) (n := 2 ^ t.tb) (r := t.tb) (m := 0)
        (full := fun _ => false) hl.tkw hl.tvw hl.bpg_pos hl.bpg_le rfl ⟨rfl, rfl⟩ rfl (reserveBits_pow htb) hl.lo hl.hi
      rw [reserveEmpty_withErase] at g1
      rw [Live_withErase] at g2
      have hr : Tab.reserve (grpDbgMap c) { t0.clear (grpDbgMap c) with kw := t.kw, vw := t.vw, elems := t.elems, bpg := t.bpg }
          (2 ^ t.tb) = .ok { t1 with elems := t.elems } := by
        unfold Tab.reserve Tab.reserveWith
        rw [reserveBits_pow htb]
        exact reserveEmpty_elems (grpDbgMap c) { t0.clear (grpDbgMap c) with kw := t.kw, vw := t.vw, bpg := t.bpg } t1 _ t.elems g1
      have ht1kw : t1.kw = kw := g2.tkw
      have hd1 : Tab.dim (grpDbgMap c) { t1 with elems := t.elems } = t.dim (grpDbgMap c) := by
        unfold Tab.dim Tab.hash
        simp only [g3, g4, g2.tkw, g2.tvw, hl.tkw, hl.tvw]
      have hR1 : GrpDbgRep sp c kw (hk.lo kw 64) (hk.width kw - 1) t1.store (t1.dim (grpDbgMap c)) (fun _ => []) := g2.rep.1
      have hn1 : t1.store.n = t.store.n := by
        rw [hR1.n, hR.n]
        show 2 ^ t1.tb / t1.bpg + 1 = _
        rw [g3, g4]; rfl
      have hcnt1 : t1.store.cnt = 2 ^ t.tb := by rw [hR1.cnt]; show 2 ^ t1.tb = _; rw [g3]
      have hc1 : grpCount { t1 with elems := t.elems } = grpCount t := by
        unfold grpCount Tab.bucketCount
        simp only [g3, g4]
      have hbc1 : Tab.bucketCount { t1 with elems := t.elems } = t.bucketCount := by
        unfold Tab.bucketCount
        simp only [g3]
      obtain ⟨u1, f1, f2, f5, f6, f3, _⟩ := e2 t1.store (ss ++ (rs ++ rest)) hn1
      obtain ⟨u2, v1, v2, v3, v4, v5, _⟩ := s2 u1 (rs ++ rest) (by rw [f5]; exact hcnt1)
      have hslots : ∀ j < u2.n, SlotDbg false (u2.grp j) (t.dim (grpDbgMap c)).bpg (t.dim (grpDbgMap c)).qw (t.dim (grpDbgMap c)).vw
          (localCont (t.dim (grpDbgMap c)).bpg cont j) := by
        intro j hj
        rw [v4]
        exact f3 j (by omega) (by omega)
      have hn2 : u2.n = 2 ^ t.tb / t.bpg + 1 := by rw [v2, f2, hR.n]; rfl
      have hrow2 : ∀ b < 2 ^ t.tb, u2.row b = { t1.store.row b with size := (cont b).length } := by
        intro b hb
        rw [v5 b (by rw [hbc]; exact List.mem_range.mpr hb), f6, hlen b hb]
      have hsz2 : ∀ b ∈ List.range t.bucketCount, (u2.row b).size = (cont b).length := by
        intro b hb
        rw [hrow2 b (hbs b hb)]
      obtain ⟨u3, w1, w2, w3, w4, w5, _⟩ := r2 u2 0 rest v3 hn2 hslots hsz2
      have hchk := checkSizes_ok (c := c) hslots hn2 v3 hp1 (by omega) (List.range t.bucketCount) (fun b hb => ⟨hbs b hb, hsz2 b hb⟩)
      have helems : t.elems = 0 + lenSum cont (List.range t.bucketCount) := by
        rw [hl.elems, hbc]
        simp [ents, stored_length]
      rw [← helems] at w1
      refine ⟨_, grpDbgDeser_eq (by omega) (by omega) htb hsz (by have := hl.bpg_le; omega) he (by rw [htkw]; exact hnew) hr g3 g4.symm rfl
        (by show c.remOK t1.kw t1.tb = true; rw [ht1kw, g3, ← htkw]; exact hrem)
        (by rw [hd1, hc1]; exact f1) (by rw [hbc1]; exact v1) (by rw [hd1, hbc1]; exact hchk) (by rw [hd1, hbc1]; exact w1),
        .inr ⟨cont, [], full1, ?_, ?_⟩, g4, fun _ => g3⟩
      · refine { tkw := g2.tkw, tvw := g2.tvw, bpg_pos := g2.bpg_pos, bpg_le := g2.bpg_le, lo := g2.lo, hi := g2.hi,
                 rep := ?_, orep := g2.orep, cok := ?_, ofull := by simp, vals := ?_, ovals := by simp, elems := ?_ }
        · show GrpDbgRep false c kw (hk.lo kw 64) (hk.width kw - 1) u3 (Tab.dim (grpDbgMap c) { t1 with elems := t.elems }) cont ∧ t1.vw = vw
          rw [hd1]
          refine ⟨⟨by rw [w2]; exact hn2, by rw [w3]; exact v3, hR.out, hR.dim, ?_, ?_⟩, g2.tvw⟩
          · rw [w2, w4]
            exact hslots
          · intro b hb
            have hb' : b < 2 ^ t.tb := hb
            obtain ⟨m1, m2⟩ := w5 b (by rw [hbc]; exact List.mem_range.mpr hb')
            by_cases hc : cont b = []
            · have hrw := (hR1.row b (by show b < 2 ^ t1.tb; rw [g3]; exact hb')).2 rfl
              rw [m2 hc, hrow2 b hb', hc]
              exact ⟨⟨rfl, fun h => absurd rfl h, fun h => absurd rfl h⟩, fun _ => hrw⟩
            · exact ⟨m1 hc, fun h => absurd h hc⟩
        · show COK _ _ t1.tb _ _
          rw [g3]; exact hl.cok
        · intro b hb
          exact hl.vals b (by rw [← g3]; exact hb)
        · show t.elems = (ents _ t1.tb cont []).length
          rw [g3]; exact hl.elems
      · show l.Perm (ents _ t1.tb cont [])
        rw [g3]; exact hp

end SC
