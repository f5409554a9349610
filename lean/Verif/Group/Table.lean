import Verif.Group.Store
import Verif.Table.Erase
/-!
# `group_chaining_table`

The functions that walk over groups instead of buckets (`reserve`, `begin()`, `rbegin_nav()`) are modelled here as they are written;
the first two are shown to agree with the loops over buckets of the common control flow.
-/
namespace SC

/-- `group_chaining_table<...>` with `dummy_overflow`; `c` says which version of `select64` is used, what fresh memory contains and
whether reads behind the end of an array are faults. -/
def grpMap (c : GrpCfg) (hk : HashKind) : Cfg GrpStore Unit where
  ops := grpOps c
  ov := dummyOverflow
  hash := hk.mapping
  initBuckets := 8
  initBpg := 3
  rehashBpg := 64
  noStore := { n := 0, grp := fun _ => Group.none }

/-- the number of buckets of the first allocation is `2^grpIni` -/
def grpIni (kw : Nat) : Nat := ceilLog (min (kw - 1) 8)

/-- A covered instantiation: supported key width, value width 1..64. -/
structure GrpOK (hk : HashKind) (kw vw : Nat) : Prop where
  hash : hk.Supports kw 64 (grpIni kw)
  vw_pos : 1 ≤ vw
  vw_le : vw ≤ 64

/-- valid arguments; values are not restricted -/
abbrev GrpValid (hk : HashKind) (kw : Nat) (op : MapOp) : Prop :=
  ValidOp kw (hk.lo kw 64) (hk.width kw - 1) (fun _ => True) op

/-- parameters of the correctness argument; `sp` says that the arrays of the groups have a spare word -/
def grpPar (sp : Bool) (hk : HashKind) (kw vw : Nat) : Par GrpStore Unit where
  Rep := GrpRep sp
  RepO := DummyRep
  norm := fun w v => v % 2 ^ w
  normO := fun v => v % 2 ^ vw
  maxE := 255
  cl := 64
  W := 64
  kw := kw
  vw := vw
  lo := hk.lo kw 64
  hi := hk.width kw - 1
  ini := grpIni kw
  grow := hk.grow kw 255 64

/-- the table with `eraseAt` as in the environment `e` -/
def grpMapE (c e : GrpCfg) (hk : HashKind) : Cfg GrpStore Unit := (grpMap c hk).withErase (grpOps e).eraseAt

theorem GrpOK.coveredE {c e : GrpCfg} {hk : HashKind} {kw vw : Nat} (h : GrpOK hk kw vw) {sp : Bool} (hsp : e.strict = true → sp = true) :
    Covered (grpMapE c e hk) (fun v => v % 2 ^ vw) (hk.lo kw 64) (hk.width kw - 1) kw vw (grpPar sp hk kw vw) := by
  have hS := h.hash
  have h3 : 3 ≤ kw := by cases hk <;> exact hS.1
  obtain ⟨hi1, hi2⟩ := ini_bounds (I := 8) h3 (by omega)
  obtain ⟨h4, h5, h6, h7⟩ := HashKind.hashOK (maxE := 255) (cl := 64) hS hi1 hi2 (by omega) (by omega)
  refine ⟨laws_of (lawful_grpE c e hsp).weaken (lawful_dummy _) h4 h.vw_pos h.vw_le (by simp [grpMapE, Cfg.withErase, grpMap]) (by simp [grpMapE, Cfg.withErase, grpMap])
    (by simp [grpMapE, Cfg.withErase, grpMap]) (by simp [grpMapE, Cfg.withErase, grpMap]) (fun x => Nat.mod_mod _ _) (fun x => Nat.mod_mod _ _) (show 2 ≤ kw by omega)
    (by simp [grpMapE, Cfg.withErase, grpMap]) rfl h5 h6, h7, ?_, rfl, rfl, rfl, rfl, rfl, rfl, rfl⟩
  intro o n l full h
  exact h.1

theorem GrpOK.covered {c : GrpCfg} {hk : HashKind} {kw vw : Nat} (h : GrpOK hk kw vw) {sp : Bool} (hsp : c.strict = true → sp = true) :
    Covered (grpMap c hk) (fun v => v % 2 ^ vw) (hk.lo kw 64) (hk.width kw - 1) kw vw (grpPar sp hk kw vw) := h.coveredE hsp

/-! ## Loops over groups -/

variable {c : GrpCfg} {hk : HashKind} {kw vw : Nat}

/-- `group_count()`, grp:923-925; `m_groups` is null exactly if there are no buckets -/
def grpCount {S O : Type} (t : Tab S O) : Nat := if t.tb = 0 then 0 else t.bucketCount / t.bpg + 1

/-- `capacity()` and `max_size()`, grp:772-774, 908-911 -/
def grpCapacity {O : Type} (t : Tab GrpStore O) : Nat := grpCount t * 255 % W64

/-- The loop over the buckets of a group in `begin()`, grp:1085-1090, from bucket `i` on; the first argument is the number of
remaining buckets. -/
def Group.firstBucket (c : GrpCfg) (x : Group) (bpg : Nat) : Nat → Nat → Res (Option Nat)
  | 0, _ => .ok Option.none
  | f + 1, i => do
    let sz ← x.bucketsize c (i % bpg)
    if 0 < sz then return some i else x.firstBucket c bpg f (i + 1)

/-- The loop over the groups in `begin()`, grp:1082-1092, from group `j` on. -/
def grpFirst (c : GrpCfg) (s : GrpStore) (bpg : Nat) : Nat → Nat → Res (Option Nat)
  | 0, _ => .ok none
  | f + 1, j => do
    let x ← s.get j
    let r ← (if 0 < x.size then x.firstBucket c bpg bpg 0 else .ok none : Res (Option Nat))
    match r with
    | some i => return some (j * bpg + i)
    | none => grpFirst c s bpg f (j + 1)

/-- `begin()`, grp:1070-1097 -/
def grpBegin (c : GrpCfg) (t : Tab GrpStore Unit) : Res Nav := do
  let r ← grpFirst c t.store t.bpg (grpCount t) 0
  match r with
  | some b => return ⟨b, 0⟩
  | none => return Nav.end_

/-- The loop over the buckets of a group in `rbegin_nav()`, grp:1044-1049; the argument is `bucket_it`.  The second component is
`elements`. -/
def Group.lastBucket (c : GrpCfg) (x : Group) (bpg : Nat) : Nat → Res (Option (Nat × Nat))
  | 0 => .ok Option.none
  | i + 1 => do
    let sz ← x.bucketsize c (i % bpg)
    if 0 < sz then return some (i, sz) else x.lastBucket c bpg i

/-- The loop over the groups in `rbegin_nav()`, grp:1041-1052; the argument is `group_it`. -/
def grpLast (c : GrpCfg) (s : GrpStore) (bpg : Nat) : Nat → Res (Option (Nat × Nat))
  | 0 => .ok none
  | j + 1 => do
    let x ← s.get j
    let r ← (if 0 < x.size then x.lastBucket c bpg bpg else .ok none : Res (Option (Nat × Nat)))
    match r with
    | some (i, sz) => return some (j * bpg + i, sz)
    | none => grpLast c s bpg j

/-- `rbegin_nav()`, grp:1036-1061, with `dummy_overflow` -/
def grpRbegin (c : GrpCfg) (t : Tab GrpStore Unit) : Res Nav := do
  if t.bucketCount = 0 then return Nav.end_
  let r ← grpLast c t.store t.bpg (grpCount t)
  match r with
  | some (b, sz) => return ⟨b, sz⟩
  | none => return Nav.end_

/-- Insert the entries of bucket `i` of group `j` into `tmp`, grp:1003-1017. -/
def grpMoveBucket (c : GrpCfg) (hk : HashKind) (ins : Tab GrpStore Unit → Nat → Nat → Res (Tab GrpStore Unit × Nav))
    (t : Tab GrpStore Unit) (x : Group) (j : Nat) (tmp : Tab GrpStore Unit) (i : Nat) : Res (Tab GrpStore Unit) := do
  let n ← x.bucketsize c i
  (List.range n).foldlM (fun tmp p => do
    let q ← x.readKey c i p ((t.hash (grpMap c hk)).remainderWidth t.tb)
    let v ← x.readValue c i p t.vw
    let k ← (t.hash (grpMap c hk)).invMap q (i + j * t.bpg) t.tb
    let (tmp, _) ← ins tmp k v
    return tmp) tmp

/-- Insert the entries of group `j` into `tmp`, grp:997-1019. -/
def grpMoveGroup (c : GrpCfg) (hk : HashKind) (ins : Tab GrpStore Unit → Nat → Nat → Res (Tab GrpStore Unit × Nav))
    (t tmp : Tab GrpStore Unit) (j : Nat) : Res (Tab GrpStore Unit) := do
  let x ← t.store.get j
  if x.size = 0 then return tmp
  (List.range t.bpg).foldlM (grpMoveBucket c hk ins t x j) tmp

/-- `reserve(reserve)`, grp:958-1035, with the loop over the groups -/
def grpReserve (c : GrpCfg) (hk : HashKind) (t : Tab GrpStore Unit) (n nkw : Nat) : Res (Tab GrpStore Unit) := do
  let bits ← reserveBits n
  if t.tb = 0 then t.reserveEmpty (grpMap c hk) n
  else
    let tmp := { Tab.new (grpMap c hk) (if nkw = 0 then t.kw else nkw) t.vw with bpg := 64 }
    let tmp ← tmp.reserveEmpty (grpMap c hk) (2 ^ bits)
    (List.range (grpCount t)).foldlM (fun tmp j => grpMoveGroup c hk (Tab.findOrInsert (grpMap c hk) depth) t tmp j) tmp

/-! ## The loops over groups do what loops over buckets do -/

section
variable {sp : Bool} {d : Dim} {s : GrpStore} {cont : Cont}

theorem SlotRep.bsize {x : Group} {bpg qw vw : Nat} {cs : Cont} (hb : bpg ≤ 255) (h : SlotRep sp x bpg qw vw cs) {i : Nat}
    (hi : i < bpg) : x.bucketsize c i = .ok (cs i).length := by
  rcases h with ⟨rfl, h⟩ | ⟨h, _⟩
  · simp [Group.bucketsize, Group.none, h i]
  · exact h.bucketsize hb hi

/-- a group without entries has empty buckets only -/
theorem SlotRep.empty {x : Group} {bpg qw vw : Nat} {cs : Cont} (h : SlotRep sp x bpg qw vw cs) (h0 : x.size = 0) {i : Nat}
    (hi : i < bpg) : cs i = [] := by
  have h1 := h.size.1
  obtain ⟨tail, h2⟩ := flat_split cs hi
  have h3 := congrArg List.length (h2 (cs i))
  rw [upd_self, ← h1, h0] at h3
  simp only [List.length_append] at h3
  exact List.eq_nil_of_length_eq_zero (by omega)

theorem firstBucket_ok {x : Group} {bpg qw vw : Nat} {cs : Cont} (hb : bpg ≤ 255) (h : SlotRep sp x bpg qw vw cs) :
    ∀ f i, i + f = bpg →
      (∃ r, x.firstBucket c bpg f i = .ok (some r) ∧ i ≤ r ∧ r < bpg ∧ cs r ≠ [] ∧ ∀ y, i ≤ y → y < r → cs y = []) ∨
      (x.firstBucket c bpg f i = .ok none ∧ ∀ y, i ≤ y → y < bpg → cs y = []) := by
  intro f
  induction f with
  | zero => intro i hi; right; exact ⟨rfl, by omega⟩
  | succ f ih =>
    intro i hi
    have hlt : i < bpg := by omega
    have hs := h.bsize (c := c) hb hlt
    by_cases hc : cs i = []
    · have e : x.firstBucket c bpg (f + 1) i = x.firstBucket c bpg f (i + 1) := by
        simp only [Group.firstBucket, Nat.mod_eq_of_lt hlt, hs, ok_bind, hc, List.length_nil, Nat.lt_irrefl, if_false]
      rw [e]
      rcases ih (i + 1) (by omega) with ⟨r, h1, h2, h3, h4, h5⟩ | ⟨h1, h2⟩
      · refine .inl ⟨r, h1, by omega, h3, h4, fun y hy1 hy2 => ?_⟩
        by_cases hy : y = i
        · rw [hy]; exact hc
        · exact h5 y (by omega) hy2
      · refine .inr ⟨h1, fun y hy1 hy2 => ?_⟩
        by_cases hy : y = i
        · rw [hy]; exact hc
        · exact h2 y (by omega) hy2
    · have hp : 0 < (cs i).length := List.length_pos_iff.mpr hc
      left
      exact ⟨i, by simp only [Group.firstBucket, Nat.mod_eq_of_lt hlt, hs, ok_bind, if_pos hp]; rfl, by omega, hlt, hc, by omega⟩

theorem lastBucket_ok {x : Group} {bpg qw vw : Nat} {cs : Cont} (hb : bpg ≤ 255) (h : SlotRep sp x bpg qw vw cs) :
    ∀ i, i ≤ bpg →
      (∃ r, x.lastBucket c bpg i = .ok (some (r, (cs r).length)) ∧ r < i ∧ cs r ≠ [] ∧ ∀ y, r < y → y < i → cs y = []) ∨
      (x.lastBucket c bpg i = .ok none ∧ ∀ y, y < i → cs y = []) := by
  intro i
  induction i with
  | zero => intro _; right; exact ⟨rfl, by omega⟩
  | succ i ih =>
    intro hi
    have hlt : i < bpg := by omega
    have hs := h.bsize (c := c) hb hlt
    by_cases hc : cs i = []
    · have e : x.lastBucket c bpg (i + 1) = x.lastBucket c bpg i := by
        simp only [Group.lastBucket, Nat.mod_eq_of_lt hlt, hs, ok_bind, hc, List.length_nil, Nat.lt_irrefl, if_false]
      rw [e]
      rcases ih (by omega) with ⟨r, h1, h3, h4, h5⟩ | ⟨h1, h2⟩
      · refine .inl ⟨r, h1, by omega, h4, fun y hy1 hy2 => ?_⟩
        by_cases hy : y = i
        · rw [hy]; exact hc
        · exact h5 y hy1 (by omega)
      · refine .inr ⟨h1, fun y hy2 => ?_⟩
        by_cases hy : y = i
        · rw [hy]; exact hc
        · exact h2 y (by omega)
    · have hp : 0 < (cs i).length := List.length_pos_iff.mpr hc
      left
      exact ⟨i, by simp only [Group.lastBucket, Nat.mod_eq_of_lt hlt, hs, ok_bind, if_pos hp]; rfl, by omega, hc, by omega⟩

theorem local_ne {bpg j y : Nat} (h1 : j * bpg ≤ y) (h2 : y < j * bpg + bpg) : localCont bpg cont j (y - j * bpg) = cont y := by
  unfold localCont
  rw [if_pos (by omega), show j * bpg + (y - j * bpg) = y by omega]

theorem grpFirst_ok (hb : d.bpg ≤ 255) (h : GrpRep sp s d cont) : ∀ f j, j + f = s.n →
      (∃ b, grpFirst c s d.bpg f j = .ok (some b) ∧ cont b ≠ [] ∧ ∀ y, j * d.bpg ≤ y → y < b → cont y = []) ∨
      (grpFirst c s d.bpg f j = .ok none ∧ ∀ y, j * d.bpg ≤ y → y < s.n * d.bpg → cont y = []) := by
  intro f
  induction f with
  | zero => intro j hj; right; rw [show j = s.n by omega]; exact ⟨rfl, by omega⟩
  | succ f ih =>
    intro j hj
    have hlt : j < s.n := by omega
    have hg : s.get j = .ok (s.grp j) := by unfold GrpStore.get; rw [if_pos hlt]
    have hsl := h.grp j hlt
    have hrest : (∀ y, j * d.bpg ≤ y → y < j * d.bpg + d.bpg → cont y = []) →
        (∃ b, grpFirst c s d.bpg f (j + 1) = .ok (some b) ∧ cont b ≠ [] ∧ ∀ y, j * d.bpg ≤ y → y < b → cont y = []) ∨
        (grpFirst c s d.bpg f (j + 1) = .ok none ∧ ∀ y, j * d.bpg ≤ y → y < s.n * d.bpg → cont y = []) := by
      intro hem
      have hm : (j + 1) * d.bpg = j * d.bpg + d.bpg := by rw [Nat.add_mul, Nat.one_mul]
      rcases ih (j + 1) (by omega) with ⟨b, h1, h2, h3⟩ | ⟨h1, h2⟩
      · refine .inl ⟨b, h1, h2, fun y hy1 hy2 => ?_⟩
        by_cases hy : y < j * d.bpg + d.bpg
        · exact hem y hy1 hy
        · exact h3 y (by omega) hy2
      · refine .inr ⟨h1, fun y hy1 hy2 => ?_⟩
        by_cases hy : y < j * d.bpg + d.bpg
        · exact hem y hy1 hy
        · exact h2 y (by omega) hy2
    by_cases h0 : (s.grp j).size = 0
    · have e : grpFirst c s d.bpg (f + 1) j = grpFirst c s d.bpg f (j + 1) := by
        simp only [grpFirst, hg, ok_bind, h0, Nat.lt_irrefl, if_false]
      rw [e]
      apply hrest
      intro y hy1 hy2
      have := hsl.empty h0 (i := y - j * d.bpg) (by omega)
      rwa [local_ne hy1 hy2] at this
    · rcases firstBucket_ok (c := c) hb hsl d.bpg 0 (by omega) with ⟨r, h1, h2, h3, h4, h5⟩ | ⟨h1, h2⟩
      · refine .inl ⟨j * d.bpg + r, ?_, ?_, fun y hy1 hy2 => ?_⟩
        · simp only [grpFirst, hg, ok_bind, if_pos (Nat.pos_of_ne_zero h0), h1]; rfl
        · have := local_ne (cont := cont) (bpg := d.bpg) (j := j) (y := j * d.bpg + r) (by omega) (by omega)
          rw [show j * d.bpg + r - j * d.bpg = r by omega] at this
          rw [← this]; exact h4
        · have := h5 (y - j * d.bpg) (by omega) (by omega)
          rwa [local_ne hy1 (by omega)] at this
      · have e : grpFirst c s d.bpg (f + 1) j = grpFirst c s d.bpg f (j + 1) := by
          simp only [grpFirst, hg, ok_bind, if_pos (Nat.pos_of_ne_zero h0), h1]
        rw [e]
        apply hrest
        intro y hy1 hy2
        have := h2 (y - j * d.bpg) (by omega) (by omega)
        rwa [local_ne hy1 hy2] at this

theorem grpLast_ok (hb : d.bpg ≤ 255) (h : GrpRep sp s d cont) : ∀ j, j ≤ s.n →
      (∃ b, grpLast c s d.bpg j = .ok (some (b, (cont b).length)) ∧ b < j * d.bpg ∧ cont b ≠ [] ∧
        ∀ y, b < y → y < j * d.bpg → cont y = []) ∨
      (grpLast c s d.bpg j = .ok none ∧ ∀ y, y < j * d.bpg → cont y = []) := by
  intro j
  induction j with
  | zero => intro _; right; exact ⟨rfl, by omega⟩
  | succ j ih =>
    intro hj
    have hlt : j < s.n := by omega
    have hg : s.get j = .ok (s.grp j) := by unfold GrpStore.get; rw [if_pos hlt]
    have hsl := h.grp j hlt
    have hm : (j + 1) * d.bpg = j * d.bpg + d.bpg := by rw [Nat.add_mul, Nat.one_mul]
    have hrest : (∀ y, j * d.bpg ≤ y → y < j * d.bpg + d.bpg → cont y = []) →
        (∃ b, grpLast c s d.bpg j = .ok (some (b, (cont b).length)) ∧ b < (j + 1) * d.bpg ∧ cont b ≠ [] ∧
          ∀ y, b < y → y < (j + 1) * d.bpg → cont y = []) ∨
        (grpLast c s d.bpg j = .ok none ∧ ∀ y, y < (j + 1) * d.bpg → cont y = []) := by
      intro hem
      rw [hm]
      rcases ih (by omega) with ⟨b, h1, h2, h3, h4⟩ | ⟨h1, h2⟩
      · refine .inl ⟨b, h1, by omega, h3, fun y hy1 hy2 => ?_⟩
        by_cases hy : y < j * d.bpg
        · exact h4 y hy1 hy
        · exact hem y (by omega) hy2
      · refine .inr ⟨h1, fun y hy2 => ?_⟩
        by_cases hy : y < j * d.bpg
        · exact h2 y hy
        · exact hem y (by omega) hy2
    by_cases h0 : (s.grp j).size = 0
    · have e : grpLast c s d.bpg (j + 1) = grpLast c s d.bpg j := by
        simp only [grpLast, hg, ok_bind, h0, Nat.lt_irrefl, if_false]
      rw [e]
      apply hrest
      intro y hy1 hy2
      have := hsl.empty h0 (i := y - j * d.bpg) (by omega)
      rwa [local_ne hy1 hy2] at this
    · rcases lastBucket_ok (c := c) hb hsl d.bpg (Nat.le_refl _) with ⟨r, h1, h3, h4, h5⟩ | ⟨h1, h2⟩
      · have hr := local_ne (cont := cont) (bpg := d.bpg) (j := j) (y := j * d.bpg + r) (by omega) (by omega)
        rw [show j * d.bpg + r - j * d.bpg = r by omega] at hr
        rw [hr] at h1 h4
        refine .inl ⟨j * d.bpg + r, ?_, by omega, h4, fun y hy1 hy2 => ?_⟩
        · simp only [grpLast, hg, ok_bind, if_pos (Nat.pos_of_ne_zero h0), h1]; rfl
        · have := h5 (y - j * d.bpg) (by omega) (by omega)
          rwa [local_ne (by omega) (by omega)] at this
      · have e : grpLast c s d.bpg (j + 1) = grpLast c s d.bpg j := by
          simp only [grpLast, hg, ok_bind, if_pos (Nat.pos_of_ne_zero h0), h1]
        rw [e]
        apply hrest
        intro y hy1 hy2
        have := h2 (y - j * d.bpg) (by omega)
        rwa [local_ne hy1 hy2] at this

end

end SC
