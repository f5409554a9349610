import Verif.Group.DebugGroup
import Verif.Group.Relax
import Verif.Sep.DebugTable
/-!
# The assertions of `group_chaining_table` hold
-/
namespace SC

/-! ## Copies of a bucket -/

/-- the copies of bucket `b` hold the pairs `xs`; keys are obtained from the quotients with `H.invMap` -/
structure RowRep (H : HashMapping) (tb b : Nat) (r : PlainRow) (xs : List (Nat × Nat)) : Prop where
  size : r.size = xs.length
  keys : xs ≠ [] → ∃ ks : List Nat, HoldsP r.keys ks ∧ xs.map (fun e => H.invMap e.1 b tb) = ks.map Except.ok
  vals : xs ≠ [] → HoldsP r.vals (xs.map Prod.snd)

/-- an empty bucket has no copies -/
def RowNull (r : PlainRow) (xs : List (Nat × Nat)) : Prop := xs = [] → r.keys = none ∧ r.vals = none

variable {H : HashMapping} {tb b : Nat} {r : PlainRow} {xs : List (Nat × Nat)}

theorem row_none : RowRep H tb b PlainRow.none [] ∧ RowNull PlainRow.none [] :=
  ⟨⟨rfl, fun h => absurd rfl h, fun h => absurd rfl h⟩, fun _ => ⟨rfl, rfl⟩⟩

theorem RowRep.key (h : RowRep H tb b r xs) {i : Nat} (hi : i < xs.length) :
    ∃ k, H.invMap xs[i].1 b tb = .ok k ∧ cellRead r.keys i = .ok k := by
  obtain ⟨ks, h1, h2⟩ := h.keys (List.ne_nil_of_length_pos (by omega))
  have hl : xs.length = ks.length := by simpa using congrArg List.length h2
  refine ⟨ks[i], ?_, h1.read (by omega)⟩
  have := congrArg (·[i]?) h2
  simp only [List.getElem?_map, List.getElem?_eq_getElem hi, List.getElem?_eq_getElem (show i < ks.length by omega), Option.map_some,
    Option.some.injEq] at this
  exact this

theorem RowRep.val (h : RowRep H tb b r xs) {i : Nat} (hi : i < xs.length) : cellRead r.vals i = .ok xs[i].2 := by
  have := (h.vals (List.ne_nil_of_length_pos (by omega))).read (i := i) (by simpa using hi)
  simpa using this

theorem RowRep.push (h : RowRep H tb b r xs) (hn : RowNull r xs) (hlt : xs.length + 1 < 2 ^ 32) {q k : Nat}
    (hk : H.invMap q b tb = .ok k) (v : Nat) :
    ∃ r' ks vs, r.grow xs.length = .ok r' ∧ r'.size = xs.length + 1 ∧ cellWrite r'.keys xs.length k = .ok ks ∧
      cellWrite r'.vals xs.length v = .ok vs ∧ RowRep H tb b ⟨ks, vs, xs.length + 1⟩ (xs ++ [(q, v)]) := by
  unfold PlainRow.grow
  rw [h.size]
  by_cases h0 : xs = []
  · obtain ⟨n1, n2⟩ := hn h0
    subst h0
    refine ⟨⟨some [none], some [none], 1⟩, some [some k], some [some v], ?_, rfl, rfl, rfl, rfl, ?_, ?_⟩
    · simp only [n1, n2, List.length_nil, ddcheck_ok, ok_bind, if_true, Option.isNone_none, plainInitialize, pure_eq_ok]
      rfl
    · intro _
      exact ⟨[k], ⟨_, rfl, by simp⟩, by simp [hk]⟩
    · intro _
      exact ⟨_, rfl, by simp⟩
  · have hl : xs.length ≠ 0 := fun e => h0 (List.eq_nil_of_length_eq_zero e)
    obtain ⟨ks, k1, k2⟩ := h.keys h0
    have kl : xs.length = ks.length := by simpa using congrArg List.length k2
    obtain ⟨L1, l1, l2, l3⟩ := k1.resize (n := xs.length + 1) (by omega)
    obtain ⟨L2, m1, m2, m3⟩ := (h.vals h0).resize (n := xs.length + 1) (by rw [List.length_map]; omega)
    obtain ⟨p1, a1, a2⟩ := HoldsP.append (p := some L1) (ys := ks) (.inr ⟨L1, rfl, by omega, l3⟩) k
    obtain ⟨p2, b1, b2⟩ := HoldsP.append (p := some L2) (ys := xs.map Prod.snd) (.inr ⟨L2, rfl, by rw [List.length_map]; omega, m3⟩) v
    rw [List.length_map] at b1
    refine ⟨⟨some L1, some L2, xs.length + 1⟩, p1, p2, ?_, rfl, by rw [kl]; exact a1, b1, by simp, ?_, ?_⟩
    · simp only [ddcheck_ok, ok_bind, hl, if_false, l1, m1, pure_eq_ok, Nat.mod_eq_of_lt hlt]
    · intro _
      exact ⟨ks ++ [k], a2, by simp [k2, hk]⟩
    · intro _
      rw [List.map_append]
      exact b2

theorem plainErase_eq (p : PlainB) (i n : Nat) : plainErase p i n = cellDown 1 p (i + 1) (n - (i + 1)) := by
  unfold plainErase
  generalize i + 1 = j
  generalize n - j = m
  induction m generalizing p j with
  | zero => rfl
  | succ m ih =>
    simp only [plainEraseLoop, cellDown]
    congr 1; funext x
    congr 1; funext p'
    exact ih p' (j + 1)

theorem HoldsP.plainErase {p : PlainB} {ys : List Nat} (h : HoldsP p ys) {i : Nat} (hi : i < ys.length) :
    ∃ p', SC.plainErase p i ys.length = .ok p' ∧ HoldsP p' (ys.eraseIdx i) := by
  obtain ⟨L, rfl, hL⟩ := h
  obtain ⟨L', u1, u2, u3⟩ := cellDown_eq (off := 1) (by omega) (ys.length - (i + 1)) (i + 1) L (by omega)
    (fun j _ h2 => ⟨_, hL j (by omega)⟩)
  refine ⟨some L', by rw [plainErase_eq]; exact u1, _, rfl, fun j hj => ?_⟩
  rw [List.length_eraseIdx_of_lt hi] at hj
  rw [u3, List.getElem_eraseIdx]
  by_cases hji : j < i
  · rw [if_neg (by omega), dif_pos hji]
    exact hL j (by omega)
  · rw [if_pos (by omega), dif_neg hji]
    exact hL (j + 1) (by omega)

theorem RowRep.erase (h : RowRep H tb b r xs) {i : Nat} (hi : i < xs.length) :
    ∃ ks vs, plainErase r.keys i r.size = .ok ks ∧ plainErase r.vals i r.size = .ok vs ∧
      RowRep H tb b ⟨ks, vs, r.size - 1⟩ (xs.eraseIdx i) := by
  have h0 : xs ≠ [] := List.ne_nil_of_length_pos (by omega)
  obtain ⟨ks, k1, k2⟩ := h.keys h0
  have kl : xs.length = ks.length := by simpa using congrArg List.length k2
  obtain ⟨p1, a1, a2⟩ := k1.plainErase (i := i) (by omega)
  obtain ⟨p2, b1, b2⟩ := (h.vals h0).plainErase (i := i) (by rw [List.length_map]; exact hi)
  rw [List.length_map] at b1
  refine ⟨p1, p2, by rw [h.size, kl]; exact a1, by rw [h.size]; exact b1, ?_, ?_, ?_⟩
  · show r.size - 1 = _
    rw [h.size, List.length_eraseIdx_of_lt hi]
  · intro _
    exact ⟨_, a2, by rw [map_eraseIdx, k2, map_eraseIdx]⟩
  · intro _
    rw [map_eraseIdx]
    exact b2

theorem RowRep.set (h : RowRep H tb b r xs) {i : Nat} (hi : i < xs.length) (v : Nat) :
    ∃ vs, cellWrite r.vals i v = .ok vs ∧ RowRep H tb b { r with vals := vs } (xs.set i (xs[i].1, v)) := by
  have h0 : xs ≠ [] := List.ne_nil_of_length_pos (by omega)
  obtain ⟨p', a1, a2⟩ := (h.vals h0).set (i := i) (by rw [List.length_map]; exact hi) v
  refine ⟨p', a1, by rw [List.length_set]; exact h.size, ?_, ?_⟩
  · intro _
    obtain ⟨ks, k1, k2⟩ := h.keys h0
    refine ⟨ks, k1, ?_⟩
    rw [List.map_set, ← k2]
    apply List.ext_getElem (by simp)
    intro j hj1 hj2
    rw [List.getElem_set]
    split
    · rename_i e; subst e; simp
    · rfl
  · intro _
    rw [List.map_set]
    exact a2

/-! ## The table -/

/-- what the tests require of the hash function -/
structure GrpDbgOK (c : GrpDbgCfg) (kw lo hi : Nat) : Prop where
  inv : ∀ tb, lo ≤ tb → tb ≤ hi → HashInv (c.hash kw) kw tb ∧ c.remOK kw tb = true

/-- dimensions that occur -/
def GrpDbgDim (c : GrpDbgCfg) (kw lo hi : Nat) (d : Dim) : Prop :=
  d.qw = (c.hash kw).remainderWidth d.tb ∧ d.kw = kw ∧ lo ≤ d.tb ∧ d.tb ≤ hi

/-- a group within a table: cleared and without entries, or as described by `GroupDbgRep` with at least one entry -/
def SlotDbg (sp : Bool) (x : GroupDbg) (bpg qw vw : Nat) (cs : Cont) : Prop :=
  (x.Cleared ∧ ∀ g, cs g = []) ∨ (GroupDbgRep sp x bpg qw vw cs ∧ (flat cs bpg).length ≤ 255 ∧ 0 < (flat cs bpg).length)

/-- the storage holds the buckets `cont` -/
structure GrpDbgRep (sp : Bool) (c : GrpDbgCfg) (kw lo hi : Nat) (s : GrpDbg) (d : Dim) (cont : Cont) : Prop where
  n : s.n = 2 ^ d.tb / d.bpg + 1
  cnt : s.cnt = 2 ^ d.tb
  out : ∀ b, 2 ^ d.tb ≤ b → cont b = []
  dim : GrpDbgDim c kw lo hi d
  grp : ∀ j < s.n, SlotDbg sp (s.grp j) d.bpg d.qw d.vw (localCont d.bpg cont j)
  row : ∀ b < 2 ^ d.tb, RowRep (c.hash d.kw) d.tb b (s.row b) (cont b) ∧ RowNull (s.row b) (cont b)

variable {sp : Bool} {c : GrpDbgCfg} {kw lo hi : Nat} {s : GrpDbg} {d : Dim} {cont : Cont} {x : GroupDbg} {cs : Cont} {bpg qw vw : Nat}

/-- the groups as in a release build -/
def GrpDbg.base (s : GrpDbg) : GrpStore := ⟨s.n, fun j => (s.grp j).base⟩

theorem SlotDbg.base (h : SlotDbg sp x bpg qw vw cs) : SlotRep sp x.base bpg qw vw cs := by
  rcases h with ⟨h, h0⟩ | ⟨h, hl, _⟩
  · exact .inl ⟨by unfold GroupDbg.base Group.none; rw [h.size, h.kdata, h.vdata, h.border], h0⟩
  · obtain ⟨b, b1, b2, _⟩ := h.ends.border
    exact .inr ⟨⟨h.ends.size, h.ends.lt, h.ends.out, h.keys.data, h.vals.data, b, b1, b2⟩, hl⟩

theorem GrpDbgRep.base (h : GrpDbgRep sp c kw lo hi s d cont) : GrpRep sp s.base d cont :=
  ⟨h.n, h.out, fun j hj => (h.grp j hj).base⟩

theorem grpDbg_full (s : GrpDbg) (d : Dim) (b : Nat) : c.ops.full s d b = (grpOps c.g).full s.base d b := by
  simp only [GrpDbgCfg.ops, grpOps, GrpDbg.get, GrpStore.get, GrpDbg.base]
  split <;> rfl

theorem GrpDbgRep.get (h : GrpDbgRep sp c kw lo hi s d cont) {b : Nat} (hb : b < 2 ^ d.tb) :
    b / d.bpg < s.n ∧ s.get (b / d.bpg) = .ok (s.grp (b / d.bpg)) ∧ s.getRow b = .ok (s.row b) := by
  have h1 : b / d.bpg < s.n := (h.base.get hb).1
  exact ⟨h1, by unfold GrpDbg.get; rw [if_pos h1], by unfold GrpDbg.getRow; rw [if_pos (by rw [h.cnt]; exact hb)]⟩

theorem SlotDbg.size (h : SlotDbg sp x bpg qw vw cs) : x.size = (flat cs bpg).length ∧ (flat cs bpg).length ≤ 255 := h.base.size

theorem SlotDbg.bucketsize {g : GrpCfg} (h : SlotDbg sp x bpg qw vw cs) (hb : bpg ≤ 255) {i : Nat} (hi : i < bpg) :
    x.bucketsize g i = .ok (cs i).length := by
  rcases h with ⟨h, h0⟩ | ⟨h, _⟩
  · rw [h0 i]; unfold GroupDbg.bucketsize; rw [if_pos h.size]; rfl
  · exact h.ends.bucketsize hb hi

theorem SlotDbg.live (h : SlotDbg sp x bpg qw vw cs) {g i : Nat} (hi : i < (cs g).length) : GroupDbgRep sp x bpg qw vw cs := by
  rcases h with ⟨_, h⟩ | ⟨h, _⟩
  · rw [h g] at hi; simp at hi
  · exact h

/-- one group, one bucket and the copies of empty buckets change -/
theorem GrpDbgRep.change (h : GrpDbgRep sp c kw lo hi s d cont) (hp : 1 ≤ d.bpg) {b : Nat} (hb : b < 2 ^ d.tb) {y : GroupDbg}
    {ys : List (Nat × Nat)} (hy : SlotDbg sp y d.bpg d.qw d.vw (upd (localCont d.bpg cont (b / d.bpg)) (b % d.bpg) ys)) {s' : GrpDbg}
    (hn : s'.n = s.n) (hc : s'.cnt = s.cnt) (hg : s'.grp = upd s.grp (b / d.bpg) y)
    (hr : ∀ b' < 2 ^ d.tb, RowRep (c.hash d.kw) d.tb b' (s'.row b') (upd cont b ys b') ∧ RowNull (s'.row b') (upd cont b ys b')) :
    GrpDbgRep sp c kw lo hi s' d (upd cont b ys) where
  n := by rw [hn]; exact h.n
  cnt := by rw [hc]; exact h.cnt
  dim := h.dim
  row := hr
  out := by
    intro b' hb'
    rw [upd_other _ _ (by omega)]
    exact h.out b' hb'
  grp := by
    intro j hj
    rw [hg, local_upd hp]
    by_cases he : j = b / d.bpg
    · rw [if_pos he, he, upd_same]; exact hy
    · rw [if_neg he, upd_other _ _ he]; exact h.grp j (by rw [← hn]; exact hj)

theorem GrpDbgRep.set (h : GrpDbgRep sp c kw lo hi s d cont) (hp : 1 ≤ d.bpg) {b : Nat} (hb : b < 2 ^ d.tb) {y : GroupDbg} {r : PlainRow}
    {ys : List (Nat × Nat)} (hy : SlotDbg sp y d.bpg d.qw d.vw (upd (localCont d.bpg cont (b / d.bpg)) (b % d.bpg) ys))
    (hr : RowRep (c.hash d.kw) d.tb b r ys) (hne : ys ≠ []) : GrpDbgRep sp c kw lo hi (s.set (b / d.bpg) y b r) d (upd cont b ys) := by
  refine h.change hp hb hy rfl rfl rfl fun b' hb' => ?_
  show RowRep _ _ _ (upd s.row b r b') _ ∧ RowNull (upd s.row b r b') _
  by_cases he : b' = b
  · subst he; simp only [upd_same]; exact ⟨hr, fun e => absurd e hne⟩
  · simp only [upd_other _ _ he]; exact h.row b' hb'

theorem GrpDbgOK.width {W : Nat} (hO : GrpDbgOK c kw lo hi) (hd : GoodDim W d) (hD : GrpDbgDim c kw lo hi d) :
    dbgWidth c.remOK d = .ok () := by
  obtain ⟨_, d2, d3, d4⟩ := hD
  have hrem := (hO.inv d.tb d3 d4).2
  rw [← d2] at hrem
  simp only [dbgWidth, ddcheck_ok hrem, ddcheck_ok (show 0 < d.qw from hd.qw_pos), ddcheck_ok hd.qw_le, ok_bind]

theorem GroupDbgRep.compare (h : GroupDbgRep sp x d.bpg d.qw d.vw cs) (hb : d.bpg ≤ 255) (hq : 1 ≤ d.qw) (hv : 1 ≤ d.vw)
    (hg : b % d.bpg < d.bpg) (hr : RowRep (c.hash d.kw) d.tb b r (cs (b % d.bpg))) {i : Nat} (hi : i < (cs (b % d.bpg)).length) :
    x.compare c d r b i = .ok () := by
  obtain ⟨k, k1, k2⟩ := hr.key hi
  unfold GroupDbg.compare
  rw [h.readKey hb hq hg hi, ok_bind, k1, ok_bind, k2, ok_bind, ddcheck_ok rfl, ok_bind, hr.val hi, ok_bind,
    h.readValue hb hv hg hi, ok_bind, ddcheck_ok rfl]

theorem GroupDbgRep.compareAll (h : GroupDbgRep sp x d.bpg d.qw d.vw cs) (hb : d.bpg ≤ 255) (hq : 1 ≤ d.qw) (hv : 1 ≤ d.vw)
    (hg : b % d.bpg < d.bpg) (hr : RowRep (c.hash d.kw) d.tb b r (cs (b % d.bpg))) : ∀ (n i : Nat),
    i + n = (cs (b % d.bpg)).length → GroupDbg.compareAll c x d r b i n = .ok () := by
  intro n
  induction n with
  | zero => intro i _; rfl
  | succ n ih =>
    intro i hi
    simp only [GroupDbg.compareAll]
    rw [h.compare hb hq hv hg hr (by omega), ok_bind, ih (i + 1) (by omega)]

theorem GroupDbgRep.scan (h : GroupDbgRep sp x d.bpg d.qw d.vw cs) (hb : d.bpg ≤ 255) (hq : 1 ≤ d.qw) (hv : 1 ≤ d.vw)
    (hg : b % d.bpg < d.bpg) (hr : RowRep (c.hash d.kw) d.tb b r (cs (b % d.bpg))) (q : Nat) : ∀ (n i : Nat),
    i + n = (cs (b % d.bpg)).length → GroupDbg.scan c x d r b q i n =
      .ok (if q ∈ ((cs (b % d.bpg)).drop i).map Prod.fst then i + (((cs (b % d.bpg)).drop i).map Prod.fst).idxOf q else NPOS) := by
  intro n
  induction n with
  | zero =>
    intro i hi
    have : (cs (b % d.bpg)).drop i = [] := by rw [List.drop_eq_nil_iff]; omega
    simp only [GroupDbg.scan, this, List.map_nil, List.not_mem_nil, if_false]
  | succ n ih =>
    intro i hi
    have hi' : i < (cs (b % d.bpg)).length := by omega
    obtain ⟨k, k1, k2⟩ := hr.key hi'
    simp only [GroupDbg.scan]
    rw [h.readKey hb hq hg hi', ok_bind, k1, ok_bind, hr.val hi', ok_bind, h.readValue hb hv hg hi', ok_bind, ddcheck_ok rfl, ok_bind,
      k2, ok_bind, ddcheck_ok rfl, ok_bind, List.drop_eq_getElem_cons hi', List.map_cons]
    by_cases he : (cs (b % d.bpg))[i].1 = q
    · rw [if_pos he, if_pos (by rw [he]; exact List.mem_cons_self), List.idxOf_cons, he]
      simp [pure_eq_ok]
    · rw [if_neg he, ih (i + 1) (by omega)]
      have hm : q ∈ (cs (b % d.bpg))[i].1 :: ((cs (b % d.bpg)).drop (i + 1)).map Prod.fst ↔
          q ∈ ((cs (b % d.bpg)).drop (i + 1)).map Prod.fst := by
        rw [List.mem_cons]
        exact ⟨fun h => h.resolve_left (fun e => he e.symm), .inr⟩
      by_cases hq' : q ∈ ((cs (b % d.bpg)).drop (i + 1)).map Prod.fst
      · rw [if_pos hq', if_pos (hm.mpr hq'), List.idxOf_cons]
        have : ((cs (b % d.bpg))[i].1 == q) = false := by simpa using he
        rw [this]
        refine congrArg Except.ok ?_
        simp only [cond_false]
        omega
      · rw [if_neg hq', if_neg (fun h => hq' (hm.mp h))]

/-- everything before the call of `push_back` -/
theorem GrpDbgRep.prepare {W : Nat} (hO : GrpDbgOK c kw lo hi) (h : GrpDbgRep sp c kw lo hi s d cont) (hd : GoodDim W d) {b : Nat}
    (hb : b < 2 ^ d.tb) {q : Nat} (hq : q < 2 ^ d.qw) (hf : c.ops.full s d b = .ok false) (v : Nat) :
    ∃ (x : GroupDbg) (ks vs : PlainB) (k : Nat), GroupDbgRep sp x d.bpg d.qw d.vw (localCont d.bpg cont (b / d.bpg)) ∧
      (flat (localCont d.bpg cont (b / d.bpg)) d.bpg).length < 255 ∧
      (c.hash d.kw).invMap q b d.tb = .ok k ∧ RowRep (c.hash d.kw) d.tb b ⟨ks, vs, (cont b).length + 1⟩ (cont b ++ [(q, v)]) ∧
      c.ops.push s d b q v = (do
        let x ← x.push c.g d.bpg (b % d.bpg) q d.qw v d.vw
        let n ← x.bucketsize c.g (b % d.bpg)
        ddcheck true ((cont b).length + 1 = n)
        let q' ← x.readKey c.g (b % d.bpg) (cont b).length d.qw
        let k' ← (c.hash d.kw).invMap q' b d.tb
        ddcheck true (k' = k)
        let pv ← cellRead vs (cont b).length
        let v' ← x.readValue c.g (b % d.bpg) (cont b).length d.vw
        ddcheck true (pv = v')
        return s.set (b / d.bpg) x b ⟨ks, vs, (cont b).length + 1⟩) := by
  obtain ⟨g1, g2, g3⟩ := h.get hb
  have hp := hd.bpg_pos
  have hl := hd.bpg_le
  obtain ⟨h3, h4⟩ := div_mod_bpg (b := b) hp
  have hs := h.grp _ g1
  have hlt : (flat (localCont d.bpg cont (b / d.bpg)) d.bpg).length < 255 := by
    simp only [GrpDbgCfg.ops, g2, ok_bind, pure_eq_ok, Except.ok.injEq, beq_eq_false_iff_ne] at hf
    have := hs.size
    omega
  have hbs := hs.bucketsize (g := c.g) (by omega) h4
  rw [local_at hp] at hbs
  have hbl : (cont b).length < 255 := by
    have h6 := flat_le (cs := localCont d.bpg cont (b / d.bpg)) (show b % d.bpg + 1 ≤ d.bpg by omega)
    rw [flat_succ, local_at hp] at h6
    omega
  obtain ⟨x, hx1, hx2⟩ : ∃ x, (if (s.grp (b / d.bpg)).border.isNone then (s.grp (b / d.bpg)).init c.g d.bpg d.qw d.vw
      else .ok (s.grp (b / d.bpg)) : Res GroupDbg) = .ok x ∧
      GroupDbgRep sp x d.bpg d.qw d.vw (localCont d.bpg cont (b / d.bpg)) := by
    rcases hs with ⟨e, he⟩ | ⟨hg, _⟩
    · obtain ⟨x, hx1, hx2⟩ := GroupDbgRep.init (c := c.g) e (bpg := d.bpg) (by omega) d.qw d.vw
      refine ⟨x, by rw [e.border]; exact hx1, ?_⟩
      have : localCont d.bpg cont (b / d.bpg) = fun _ => [] := funext he
      rw [this]; exact hx2
    · obtain ⟨bb, hbb, _⟩ := hg.ends.border
      exact ⟨_, by rw [hbb]; rfl, hg⟩
  obtain ⟨d1, d2, d3, d4⟩ := h.dim
  obtain ⟨k, k1, k2⟩ := (hO.inv d.tb d3 d4).1.inv q b (by rw [← d1]; exact hq) hb
  rw [← d2] at k1 k2
  obtain ⟨hr, hn⟩ := h.row b hb
  obtain ⟨r', ks, vs, r1, r2, r3, r4, r5⟩ := hr.push hn (by omega) k1 v
  refine ⟨x, ks, vs, k, hx2, hlt, k1, r5, ?_⟩
  simp only [GrpDbgCfg.ops, GroupDbg.insert, g2, g3, hbs, k1, hO.width hd h.dim, hx1, r1, r2, r3, r4, ok_bind,
    ddcheck_ok (show k ≤ 2 ^ d.kw - 1 by omega), ddcheck_ok (room_ok hd.qw_pos (show (cont b).length < (cont b).length + 1 by omega)),
    ddcheck_ok (show d.qw ≤ 64 from Nat.le_trans hd.qw_le hd.kw_le), bind_assoc, pure_bind]

theorem GrpDbgRep.eraseAt {W : Nat} (hO : GrpDbgOK c kw lo hi) (hsp : c.g.strict = true → sp = true)
    (h : GrpDbgRep sp c kw lo hi s d cont) (hd : GoodDim W d) {b i : Nat} (hb : b < 2 ^ d.tb) (hib : i < (cont b).length) :
    ∃ s', c.ops.eraseAt s d b i = .ok s' ∧ GrpDbgRep sp c kw lo hi s' d (upd cont b ((cont b).eraseIdx i)) := by
  obtain ⟨g1, g2, g3⟩ := h.get hb
  have hp := hd.bpg_pos
  have hl := hd.bpg_le
  have h3 := local_at (cont := cont) (b := b) hp
  obtain ⟨h5, h4⟩ := div_mod_bpg (b := b) hp
  have hi' : i < (localCont d.bpg cont (b / d.bpg) (b % d.bpg)).length := by rw [h3]; exact hib
  have hg := (h.grp _ g1).live hi'
  obtain ⟨hr, _⟩ := h.row b hb
  obtain ⟨y, y1, y2⟩ := hg.erase (c := c.g) (by omega) hd.qw_pos hd.vw_pos hsp h4 hi'
  obtain ⟨ks, vs, k1, v1, r1⟩ := hr.erase hib
  simp only [h3] at y2
  have hlen := flat_erase h4 hi'
  rw [h3] at hlen
  have z1 := y2.ends.bucketsize (c := c.g) (by omega) h4
  rw [upd_same] at z1
  have z2 := y2.compareAll (c := c) (r := ⟨ks, vs, (s.row b).size - 1⟩) (by omega) hd.qw_pos hd.vw_pos h4 (by rw [upd_same]; exact r1)
    ((s.row b).size - 1) 0 (by rw [upd_same, ← r1.size]; simp)
  have hsz : (s.row b).size = (cont b).length := hr.size
  -- the state before a group without entries is cleared
  obtain ⟨s1, hs1⟩ : ∃ s1, s1 = s.set (b / d.bpg) y b ⟨ks, vs, (s.row b).size - 1⟩ := ⟨_, rfl⟩
  have q1 : s1.n = s.n := by rw [hs1]; rfl
  have q2 : s1.cnt = s.cnt := by rw [hs1]; rfl
  have q3 : s1.grp = upd s.grp (b / d.bpg) y := by rw [hs1]; rfl
  have q4 : s1.row = upd s.row b ⟨ks, vs, (s.row b).size - 1⟩ := by rw [hs1]; rfl
  have hrow : ∀ b' < 2 ^ d.tb, RowRep (c.hash d.kw) d.tb b' (s1.row b') (upd cont b ((cont b).eraseIdx i) b') ∧
      (b' ≠ b → RowNull (s1.row b') (upd cont b ((cont b).eraseIdx i) b')) := by
    intro b' hb'
    rw [q4]
    by_cases he : b' = b
    · subst he; simp only [upd_same]; exact ⟨r1, fun e => absurd rfl e⟩
    · simp only [upd_other _ _ he]; exact ⟨(h.row b' hb').1, fun _ => (h.row b' hb').2⟩
  have main : ∃ s2, (if y.size = 0 then s1.clearGroup d (b / d.bpg) else .ok s1 : Res GrpDbg) = .ok s2 ∧ s2.n = s.n ∧ s2.cnt = s.cnt ∧
      (∃ y', s2.grp = upd s.grp (b / d.bpg) y' ∧
        SlotDbg sp y' d.bpg d.qw d.vw (upd (localCont d.bpg cont (b / d.bpg)) (b % d.bpg) ((cont b).eraseIdx i))) ∧
      ∀ b' < 2 ^ d.tb, RowRep (c.hash d.kw) d.tb b' (s2.row b') (upd cont b ((cont b).eraseIdx i) b') ∧
        (b' ≠ b → RowNull (s2.row b') (upd cont b ((cont b).eraseIdx i) b')) := by
    by_cases h0 : y.size = 0
    · have hempty : ∀ g, upd (localCont d.bpg cont (b / d.bpg)) (b % d.bpg) ((cont b).eraseIdx i) g = [] := by
        intro g
        by_cases hg : g < d.bpg
        · have h5 := flat_le (cs := upd (localCont d.bpg cont (b / d.bpg)) (b % d.bpg) ((cont b).eraseIdx i))
            (show g + 1 ≤ d.bpg by omega)
          rw [flat_succ] at h5
          have := y2.ends.size
          exact List.eq_nil_of_length_eq_zero (by omega)
        · exact y2.ends.out g (by omega)
      have hget : s1.get (b / d.bpg) = .ok y := by
        unfold GrpDbg.get
        rw [if_pos (by rw [q1]; exact g1), q3, upd_same]
      rw [if_pos h0]
      refine ⟨⟨s1.n, upd s1.grp (b / d.bpg) y.clear, s1.cnt, fun b' => if b / d.bpg * d.bpg ≤ b' ∧ b' < b / d.bpg * d.bpg + y.gs ∧
        b' < 2 ^ d.tb then PlainRow.none else s1.row b'⟩, ?_, q1, q2, ⟨y.clear, ?_, .inl ⟨cleared_clear y, hempty⟩⟩, ?_⟩
      · unfold GrpDbg.clearGroup
        rw [hget, ok_bind, ddcheck_ok y2.ends.gs, ok_bind, pure_eq_ok]
      · show upd s1.grp (b / d.bpg) y.clear = _
        rw [q3]
        funext j
        simp only [upd]
        split <;> rfl
      · intro b' hb'
        simp only
        by_cases hin : b / d.bpg * d.bpg ≤ b' ∧ b' < b / d.bpg * d.bpg + y.gs ∧ b' < 2 ^ d.tb
        · rw [if_pos hin]
          have hgs := y2.ends.gs
          have hlt : b' - b / d.bpg * d.bpg < d.bpg := by omega
          have := hempty (b' - b / d.bpg * d.bpg)
          have hc := local_upd (cont := cont) (b := b) hp ((cont b).eraseIdx i) (b / d.bpg)
          rw [if_pos rfl] at hc
          rw [← hc] at this
          unfold localCont at this
          rw [if_pos hlt, show b / d.bpg * d.bpg + (b' - b / d.bpg * d.bpg) = b' by omega] at this
          rw [this]
          exact ⟨row_none.1, fun _ _ => ⟨rfl, rfl⟩⟩
        · rw [if_neg hin]
          exact hrow b' hb'
    · rw [if_neg h0]
      refine ⟨s1, rfl, q1, q2, ⟨y, q3, .inr ⟨y2, ?_⟩⟩, hrow⟩
      refine ⟨?_, by have := y2.ends.size; omega⟩
      rw [hlen]
      exact Nat.le_trans (List.length_eraseIdx_le _ _) (h.grp _ g1).size.2
  obtain ⟨s2, m1, m2, m3, ⟨y', m4, m5⟩, m6⟩ := main
  have hgr : s2.getRow b = .ok (s2.row b) := by
    unfold GrpDbg.getRow; rw [if_pos (by rw [m3, h.cnt]; exact hb)]
  refine ⟨if (s2.row b).size = 0 then { s2 with row := upd s2.row b PlainRow.none } else s2, ?_, ?_⟩
  · simp only [GrpDbgCfg.ops, ddcheck_ok hb, g3, ddcheck_ok (show i < (s.row b).size by omega), g2, hO.width hd h.dim,
      hg.compare (c := c) (r := s.row b) (show d.bpg ≤ 255 by omega) hd.qw_pos hd.vw_pos h4 (by rw [h3]; exact hr) hi', k1, v1,
      ddcheck_ok (show 0 < (s.row b).size by omega), y1, z1, ddcheck_ok (show (s.row b).size - 1 = ((cont b).eraseIdx i).length from r1.size),
      z2, ← hs1, m1, hgr, ok_bind, pure_eq_ok]
  · by_cases h0 : (s2.row b).size = 0
    · rw [if_pos h0]
      refine h.change hp hb m5 m2 m3 m4 fun b' hb' => ?_
      show RowRep _ _ _ (upd s2.row b PlainRow.none b') _ ∧ RowNull (upd s2.row b PlainRow.none b') _
      by_cases he : b' = b
      · subst he
        have : (upd cont b' ((cont b').eraseIdx i)) b' = [] := List.eq_nil_of_length_eq_zero (by rw [← (m6 b' hb').1.size]; exact h0)
        rw [this, upd_same]
        exact row_none
      · rw [upd_other _ _ he]
        exact ⟨(m6 b' hb').1, (m6 b' hb').2 he⟩
    · rw [if_neg h0]
      refine h.change hp hb m5 m2 m3 m4 fun b' hb' => ⟨(m6 b' hb').1, ?_⟩
      by_cases he : b' = b
      · subst he
        intro e
        rw [(m6 b' hb').1.size, e] at h0
        exact absurd rfl h0
      · exact (m6 b' hb').2 he

/-- the configuration in another environment -/
abbrev GrpDbgCfg.withG (c : GrpDbgCfg) (e : GrpCfg) : GrpDbgCfg := { c with g := e }

theorem GrpDbgRep.withG {e : GrpCfg} : GrpDbgRep sp (c.withG e) kw lo hi s d cont ↔ GrpDbgRep sp c kw lo hi s d cont :=
  ⟨fun ⟨h1, h2, h3, h4, h5, h6⟩ => ⟨h1, h2, h3, h4, h5, h6⟩, fun ⟨h1, h2, h3, h4, h5, h6⟩ => ⟨h1, h2, h3, h4, h5, h6⟩⟩

/-- the storage functions with `eraseAt` as in the environment `e` -/
theorem lawful_grpDbg (hO : GrpDbgOK c kw lo hi) (e : GrpCfg) (hsp : e.strict = true → sp = true) :
    LawfulStore { c.ops with eraseAt := (c.withG e).ops.eraseAt } (fun w v => v % 2 ^ w) (GrpDbgRep sp c kw lo hi) 255 64 64 (fun w v => v < 2 ^ w) (GrpDbgDim c kw lo hi) where
  alloc := by
    intro d
    refine ⟨_, rfl, fun _ hD => ⟨rfl, rfl, fun _ _ => rfl, hD, fun j _ => .inl ⟨cleared_fresh _, fun g => ?_⟩, fun _ _ => row_none⟩⟩
    unfold localCont; split <;> rfl
  size := by
    intro s d cont b hd h hb
    obtain ⟨g1, g2, _⟩ := h.get hb
    have hp := hd.bpg_pos
    have hl := hd.bpg_le
    simp only [GrpDbgCfg.ops, g2, ok_bind]
    rw [(h.grp _ g1).bucketsize (by omega) (div_mod_bpg hp).2, local_at hp]
  locate := by
    intro s d cont b q hd h hb hq
    obtain ⟨g1, g2, g3⟩ := h.get hb
    have hp := hd.bpg_pos
    have hl := hd.bpg_le
    have h4 := (div_mod_bpg (b := b) hp).2
    have hs := h.grp _ g1
    have h3 := local_at (cont := cont) (b := b) hp
    have hbs := hs.bucketsize (g := c.g) (by omega) h4
    rw [h3] at hbs
    have hscan : (s.grp (b / d.bpg)).scan c d (s.row b) b q 0 (cont b).length = .ok (posOf ((cont b).map Prod.fst) q) := by
      by_cases hne : cont b = []
      · rw [hne]; rfl
      · have hi' : 0 < (localCont d.bpg cont (b / d.bpg) (b % d.bpg)).length := by rw [h3]; exact List.length_pos_iff.mpr hne
        have := (hs.live hi').scan (c := c) (r := s.row b) (by omega) hd.qw_pos hd.vw_pos h4 (by rw [h3]; exact (h.row b hb).1) q
          (cont b).length 0 (by rw [h3]; omega)
        rw [this, h3]
        simp only [List.drop_zero, Nat.zero_add, posOf]
    have hfind : (if (s.grp (b / d.bpg)).size = 0 then .ok NPOS else (s.grp (b / d.bpg)).find c.g (b % d.bpg) q d.qw : Res Nat) =
        .ok (posOf ((cont b).map Prod.fst) q) := by
      by_cases h0 : (s.grp (b / d.bpg)).size = 0
      · rw [if_pos h0]
        have h4 : cont b = [] := by
          have := hs.size.1
          have h6 := flat_le (cs := localCont d.bpg cont (b / d.bpg)) (show b % d.bpg + 1 ≤ d.bpg by omega)
          rw [flat_succ, h3] at h6
          exact List.eq_nil_of_length_eq_zero (by omega)
        rw [h4]; rfl
      · rw [if_neg h0]
        rcases hs with ⟨h4, _⟩ | ⟨hg, _⟩
        · exact absurd h4.size h0
        · rw [hg.find (by omega) hd.qw_pos hd.qw_le_W h4, h3]
    have hpos : posOf ((cont b).map Prod.fst) q ≠ NPOS → posOf ((cont b).map Prod.fst) q < (cont b).length := by
      unfold posOf
      split
      · rename_i hm
        intro _
        rw [← List.length_map (f := Prod.fst)]
        exact List.idxOf_lt_length_of_mem hm
      · intro e; exact absurd rfl e
    simp only [GrpDbgCfg.ops, hO.width hd h.dim, ddcheck_ok (msb_le_of_lt hq), g2, g3, hbs, hscan, hfind, ok_bind,
      ddcheck_ok hpos, ddcheck_ok, pure_eq_ok]
  full := fun s d cont b hd h hb => grpDbg_full (c := c) s d b ▸ (lawful_grpE (sp := sp) c.g c.g.flat (by simp)).full s.base d cont b hd h.base hb
  len := fun s d cont b hd h hb => (lawful_grpE (sp := sp) c.g c.g.flat (by simp)).len s.base d cont b hd h.base hb
  push := by
    intro s d cont b q v hd h hb hq hf hv
    obtain ⟨x, ks, vs, k, x1, x2, k1, r2, e⟩ := h.prepare hO hd hb hq hf v
    have hp := hd.bpg_pos
    have hl := hd.bpg_le
    have h3 := local_at (cont := cont) (b := b) hp
    have h4 := (div_mod_bpg (b := b) hp).2
    obtain ⟨y, y1, y2⟩ := x1.push (c := c.g) (by omega) hd.qw_pos hd.vw_pos h4 (by omega) hq hv
    rw [h3] at y2
    have hi' : (cont b).length < (upd (localCont d.bpg cont (b / d.bpg)) (b % d.bpg) (cont b ++ [(q, v)]) (b % d.bpg)).length := by
      rw [upd_same]; simp
    have z1 := y2.ends.bucketsize (c := c.g) (by omega) h4
    have z2 := y2.readKey (c := c.g) (by omega) hd.qw_pos h4 hi'
    have z3 := y2.readValue (c := c.g) (by omega) hd.vw_pos h4 hi'
    have z4 := r2.val (i := (cont b).length) (by simp)
    simp only [upd_same, List.length_append, List.length_singleton] at z1
    simp only [upd_same, List.getElem_append_right (Nat.le_refl _), Nat.sub_self, List.getElem_cons_zero] at z2 z3 z4
    refine ⟨s.set (b / d.bpg) y b ⟨ks, vs, (cont b).length + 1⟩, ?_, ?_⟩
    · rw [e, y1, ok_bind, z1, ok_bind, ddcheck_ok rfl, ok_bind, z2, ok_bind, k1, ok_bind, ddcheck_ok rfl, ok_bind, z4, ok_bind,
        z3, ok_bind, ddcheck_ok rfl, ok_bind, pure_eq_ok]
    · rw [Nat.mod_eq_of_lt hv]
      refine h.set hp hb (.inr ⟨y2, ?_⟩) r2 (by simp)
      rw [← h3, flat_push h4, List.length_insertIdx_of_le_length (flat_le (by omega))]
      omega
  quotientAt := by
    intro s d cont b i hd h hb hi
    obtain ⟨g1, g2, g3⟩ := h.get hb
    have hp := hd.bpg_pos
    have hl := hd.bpg_le
    have h3 := local_at (cont := cont) (b := b) hp
    have h4 := (div_mod_bpg (b := b) hp).2
    have hi' : i < (localCont d.bpg cont (b / d.bpg) (b % d.bpg)).length := by rw [h3]; exact hi
    have hg := (h.grp _ g1).live hi'
    obtain ⟨hr, _⟩ := h.row b hb
    have hbs := hg.ends.bucketsize (c := c.g) (by omega) h4
    have hrk := hg.readKey (c := c.g) (by omega) hd.qw_pos h4 hi'
    simp only [h3] at hbs hrk
    simp only [GrpDbgCfg.ops, hO.width hd h.dim, g2, g3, ddcheck_ok hg.ends.gs, hbs, ddcheck_ok hb, ddcheck_ok hr.size.symm,
      hg.checkPos (c := c.g) (show d.bpg ≤ 255 by omega) h4 hi',
      hg.compare (c := c) (r := s.row b) (show d.bpg ≤ 255 by omega) hd.qw_pos hd.vw_pos h4 (by rw [h3]; exact hr) hi', hrk, ok_bind]
  valueAt := by
    intro s d cont b i hd h hb hi
    obtain ⟨g1, g2, g3⟩ := h.get hb
    have hp := hd.bpg_pos
    have hl := hd.bpg_le
    have h3 := local_at (cont := cont) (b := b) hp
    have h4 := (div_mod_bpg (b := b) hp).2
    have hi' : i < (localCont d.bpg cont (b / d.bpg) (b % d.bpg)).length := by rw [h3]; exact hi
    have hrv := ((h.grp _ g1).live hi').readValue (c := c.g) (by omega) hd.vw_pos h4 hi'
    simp only [h3] at hrv
    simp only [GrpDbgCfg.ops, g2, ddcheck_ok hb, hrv, ok_bind]
  writeValue := by
    intro s d cont b i v hd h hb hi hv
    obtain ⟨g1, g2, g3⟩ := h.get hb
    have hp := hd.bpg_pos
    have hl := hd.bpg_le
    have h3 := local_at (cont := cont) (b := b) hp
    have h4 := (div_mod_bpg (b := b) hp).2
    have hi' : i < (localCont d.bpg cont (b / d.bpg) (b % d.bpg)).length := by rw [h3]; exact hi
    have hg := (h.grp _ g1).live hi'
    obtain ⟨y, y1, y2⟩ := hg.writeValue (c := c.g) (by omega) hd.vw_pos h4 hi' hv
    obtain ⟨vs, v1, v2⟩ := (h.row b hb).1.set hi v
    simp only [h3] at y2
    refine ⟨s.set (b / d.bpg) y b { s.row b with vals := vs }, ?_, ?_⟩
    · simp only [GrpDbgCfg.ops, ddcheck_ok hb, ddcheck_ok (show v ≤ 2 ^ d.vw - 1 by omega), g3, v1, g2, y1, ok_bind, pure_eq_ok]
    · rw [Nat.mod_eq_of_lt hv]
      refine h.set hp hb (.inr ⟨y2, ?_⟩) v2 (List.ne_nil_of_length_pos (by rw [List.length_set]; omega))
      have := flat_set h4 hi' ((cont b)[i].1, v)
      rw [h3] at this
      rw [this, List.length_set]
      exact ⟨(h.grp _ g1).size.2, Nat.lt_of_lt_of_le (by omega) (flat_get h4 hi').1⟩
  eraseAt := by
    intro s d cont b i hd h hb hi
    obtain ⟨s', h1, h2⟩ := ((GrpDbgRep.withG (e := e)).mpr h).eraseAt (c := c.withG e) ⟨hO.inv⟩ hsp hd hb hi
    exact ⟨s', h1, GrpDbgRep.withG.mp h2⟩
  shrink := fun s d cont b _ h _ => ⟨s, rfl, h⟩

/-- a value that does not fit is not inserted -/
theorem grpDbg_push_wide {W : Nat} (hO : GrpDbgOK c kw lo hi) (h : GrpDbgRep sp c kw lo hi s d cont) (hd : GoodDim W d) {b : Nat}
    (hb : b < 2 ^ d.tb) {q v : Nat} (hq : q < 2 ^ d.qw) (hf : c.ops.full s d b = .ok false) (hv : 2 ^ d.vw ≤ v) :
    c.ops.push s d b q v = .error .exc := by
  obtain ⟨x, ks, vs, k, x1, x2, k1, r2, e⟩ := h.prepare hO hd hb hq hf v
  have hp := hd.bpg_pos
  have hl := hd.bpg_le
  have h3 := local_at (cont := cont) (b := b) hp
  have h4 := (div_mod_bpg (b := b) hp).2
  rw [e]
  rcases x1.push_wide (c := c.g) (by omega) hd.qw_pos hd.vw_pos h4 (by omega) hq hv with y1 | ⟨y, y1, y2, y3, y4⟩
  · rw [y1, error_bind]
  · rw [h3] at y2 y3 y4
    have hi' : (cont b).length < (upd (localCont d.bpg cont (b / d.bpg)) (b % d.bpg) (cont b ++ [(q, v)]) (b % d.bpg)).length := by
      rw [upd_same]; simp
    have z1 := y2.bucketsize (c := c.g) (by omega) h4
    have z2 := y2.readKey (c := c.g) y3 (by omega) hd.qw_pos h4 hi'
    have z4 := r2.val (i := (cont b).length) (by simp)
    simp only [upd_same, List.length_append, List.length_singleton] at z1
    simp only [upd_same, List.getElem_append_right (Nat.le_refl _), Nat.sub_self, List.getElem_cons_zero] at z2 z4
    rw [y1, ok_bind, z1, ok_bind, ddcheck_ok rfl, ok_bind, z2, ok_bind, k1, ok_bind, ddcheck_ok rfl, ok_bind, z4, ok_bind,
      y4, error_bind]

end SC
