import Verif.Keysplit.Objects
import Verif.Props.Keysplit
/-!
# Adapters own their tables: C103
-/
namespace SC
variable {M : Type} {mc : MapClass M} {c : KsCfg} {tr : Nat → Nat}

/-- the tables of the adapter behave like finite maps with keys of their widths -/
structure KsTables (mc : MapClass M) (c : KsCfg) (tr : Nat → Nat) : Prop where
  bits : 1 ≤ c.maxBits
  len : 1 ≤ c.len
  good : ∃ (R : Nat → M → FMap → Prop) (valid : Nat → MapOp → Prop), (∀ i < c.len, GoodMap mc tr (c.width i) (valid i) (R i)) ∧
    ∀ i < c.len, ∀ op : KsOp, (∀ k, op.key = some k → k < 2 ^ c.width i) → valid i op.call

theorem ksTables_separate {KB VB : Type} {p : SepCfg KB VB} {hk : HashKind} {tr : Nat → Nat → Nat} {W vw : Nat} {c : KsCfg}
    (hm : 1 ≤ c.maxBits) (hl : 1 ≤ c.len) (h : ∀ i < c.len, SepOK p hk tr W (c.width i) vw) : KsTables (tabClass (sepMap p hk) vw) c (tr vw) := by
  have hP : ∀ i, ∃ P, i < c.len → SepParOK p hk tr W (c.width i) vw true P := by
    intro i
    by_cases hi : i < c.len
    · obtain ⟨P, hP⟩ := (h i hi).par true; exact ⟨P, fun _ => hP⟩
    · obtain ⟨P, hP⟩ := (h 0 (by omega)).par true; exact ⟨P, fun h => absurd h hi⟩
  refine ⟨hm, hl, fun i => Sem (sepMap p hk) (Classical.choose (hP i)), fun i => OpOK (Classical.choose (hP i)), ?_, ?_⟩
  · intro i hi
    show GoodMap _ _ _ (OpOK (Classical.choose (hP i))) (Sem _ (Classical.choose (hP i)))
    have hp := Classical.choose_spec (hP i) hi
    revert hp
    generalize Classical.choose (hP i) = P
    intro hp
    have L := hp.laws
    have g := hp.grow65
    obtain ⟨KRep, VRep, rfl⟩ := hp.par
    exact Sem.good L g rfl rfl
  · intro i hi op hop
    exact (Classical.choose_spec (hP i) hi).opOK (KsOp.valid hop)

theorem ksTables_compact {b : VarCfg} {hk : HashKind} {vw : Nat} {c : KsCfg} (hm : 1 ≤ c.maxBits) (hl : 1 ≤ c.len)
    (h : ∀ i < c.len, CmpOK b hk (c.width i) vw) : KsTables (tabClass (cmpMap b hk) vw) c (fun v => v % 2 ^ vw) :=
  ⟨hm, hl, _, _, fun i hi => (h i hi).covered.good, fun i hi _ hop => (h i hi).covered.opOK (KsOp.valid hop)⟩

theorem ksTables_group {e : GrpCfg} {hk : HashKind} {vw : Nat} {c : KsCfg} (hm : 1 ≤ c.maxBits) (hl : 1 ≤ c.len)
    (h : ∀ i < c.len, GrpOK hk (c.width i) vw) : KsTables (tabClass (grpMap e hk) vw) c (fun v => v % 2 ^ vw) :=
  ⟨hm, hl, _, _, fun i hi => ((h i hi).covered (c := e) (sp := true) (fun _ => rfl)).good,
    fun i hi _ hop => ((h i hi).covered (c := e) (sp := true) (fun _ => rfl)).opOK (KsOp.valid hop)⟩

/-! ## The claim, and the part of it that holds -/

/-- **C103** as one would like it: every program gets the answers of independent maps, in which a copy has the contents of the original; when all
adapters are destroyed each table is deleted once. It is false, see `C103_not`. -/
def C103Claim (mc : MapClass M) (c : KsCfg) (tr : Nat → Nat) : Prop := ∀ prog : List KsCmd, (∀ x ∈ prog, x.Valid c) →
  ∃ s mem, KsHeap.empty.exec mc c prog = .ok (s, (ksSpec tr [] prog).2) ∧ s.destroyAll = .ok mem ∧ ∀ a, mem a = none

theorem ks_reach (h : KsTables mc c tr) {prog : List KsCmd} (hv : ∀ x ∈ prog, x.Valid c) (hs : ∀ x ∈ prog, x.Single) :
    ∃ R s l, KsHeap.empty.exec mc c prog = .ok (s, (ksSpec tr [] prog).2) ∧ KsOwn c R s l ∧ l.map KsItem.m = (ksSpec tr [] prog).1 := by
  obtain ⟨hm, hl, R, valid, h1, h2⟩ := h
  obtain ⟨s, l, a, b⟩ := KsOwn.exec hm hl h1 h2 prog (KsOwn.empty (c := c) (R := R)) hv hs
  exact ⟨R, s, l, a, b⟩

/-- **C103** for programs that copy no adapter: any number of adapters, constructed, used and destroyed in any order, are independent finite maps;
no table that was deleted is used or deleted again, and no table is left when all adapters are destroyed. -/
theorem C103_adapters_partial (h : KsTables mc c tr) (prog : List KsCmd) (hv : ∀ x ∈ prog, x.Valid c) (hs : ∀ x ∈ prog, x.Single) :
    ∃ s mem, KsHeap.empty.exec mc c prog = .ok (s, (ksSpec tr [] prog).2) ∧ s.destroyAll = .ok mem ∧ ∀ a, mem a = none := by
  obtain ⟨R, s, l, a, b, _⟩ := ks_reach h hv hs
  obtain ⟨mem, e1, e2⟩ := b.destroyAll
  exact ⟨s, mem, a, e1, e2⟩

/-! ## Copies -/

/-- Whenever an adapter is copied, or passed to `std::move`, destroying both the original and the new adapter deletes each table twice. -/
theorem C103_copy_double_delete (h : KsTables mc c tr) (prog : List KsCmd) (hv : ∀ x ∈ prog, x.Valid c) (hs : ∀ x ∈ prog, x.Single) (i : Nat)
    (hi : i < (ksSpec tr [] prog).1.length) :
    KsHeap.empty.exec mc c (prog ++ [.copy i, .destroy i, .destroy ((ksSpec tr [] prog).1.length - 1)]) = .error .doubleFree := by
  obtain ⟨R, s, l, a, b, e⟩ := ks_reach h hv hs
  rw [← e, List.length_map] at hi ⊢
  have hx : l[i]? = some l[i] := List.getElem?_eq_getElem hi
  generalize l[i] = x at hx
  have hp : s.ads[i]? = some x.p := by rw [b.ads, List.getElem?_map, hx]; rfl
  have hlen : s.ads.length = l.length := by rw [b.ads, List.length_map]
  have hp2 : (s.ads ++ [x.p])[i]? = some x.p := by rw [List.getElem?_append_left (by omega)]; exact hp
  obtain ⟨mem', d1, d2, _⟩ := b.destroy hx
  have hp3 : ((s.ads ++ [x.p]).eraseIdx i)[l.length - 1]? = some x.p := by
    rw [List.getElem?_eraseIdx_of_ge (by omega), show l.length - 1 + 1 = s.ads.length by omega]
    simp
  have hne : x.p ≠ [] := by
    intro e0
    have := (b.ok x (List.mem_of_getElem? hx)).len
    rw [e0] at this
    have := h.len
    simp at *
    omega
  rw [KsHeap.exec_append, a, ok_bind]
  simp only [KsHeap.exec, hp, ok_bind, KsHeap.cmd, hp2, d1, pure_eq_ok, hp3, ksDelete_twice hne d2, error_bind]

/-- Whenever an adapter is copied, an assignment through the copy changes the original: it answers with the assigned value. -/
theorem C103_copy_shares (h : KsTables mc c tr) (prog : List KsCmd) (hv : ∀ x ∈ prog, x.Valid c) (hs : ∀ x ∈ prog, x.Single) (i : Nat)
    (hi : i < (ksSpec tr [] prog).1.length) (k v : Nat) (hk : k < 2 ^ c.maxBits) :
    ∃ s, KsHeap.empty.exec mc c (prog ++ [.copy i, .call (ksSpec tr [] prog).1.length (.assign k v), .call i (.find k)]) =
      .ok (s, (ksSpec tr [] prog).2 ++ [.none, .pair k (tr v)]) := by
  obtain ⟨hm, hl, R, valid, h1, h2⟩ := h
  obtain ⟨s, l, a, b, e⟩ := KsOwn.exec hm hl h1 h2 prog (KsOwn.empty (c := c) (R := R)) hv hs
  simp only [List.map_nil] at a e
  rw [← e, List.length_map] at hi ⊢
  have hx : l[i]? = some l[i] := List.getElem?_eq_getElem hi
  generalize l[i] = x at hx
  have hp : s.ads[i]? = some x.p := by rw [b.ads, List.getElem?_map, hx]; rfl
  have hlen : s.ads.length = l.length := by rw [b.ads, List.length_map]
  have hp2 : (s.ads ++ [x.p])[i]? = some x.p := by rw [List.getElem?_append_left (by omega)]; exact hp
  have hp3 : (s.ads ++ [x.p])[l.length]? = some x.p := by rw [← hlen]; simp
  obtain ⟨mem1, ms1, c1, d1⟩ := b.call hm hl h1 h2 hx (op := .assign k v) (fun k' e' => by cases e'; exact hk)
  obtain ⟨mem2, ms2, c2, d2⟩ := d1.call hm hl h1 h2 (List.getElem?_set_self (List.getElem?_eq_some_iff.mp hx).1) (op := .find k) (fun k' e' => by cases e'; exact hk)
  refine ⟨{ s with mem := mem2, ads := s.ads ++ [x.p] }, ?_⟩
  rw [KsHeap.exec_append, a, ok_bind]
  simp only at c2
  simp only [KsHeap.exec, hp, ok_bind, KsHeap.cmd, hp2, hp3, c1, c2, pure_eq_ok]
  congr 3
  simp [FMap.step, KsOp.call, FMap.put]

/-- `std::swap(xi, xj)` of two adapters, `n` adapters exist: a temporary adapter `n`, two assignments, destruction of the temporary -/
def ksSwap (i j n : Nat) : List KsCmd := [.copy i, .assign i j, .assign j n, .destroy n]

/-- Whenever two adapters are swapped with `std::swap`, the tables of the second one are deleted: every call of it with a key and its destruction
is a use of a deleted table. -/
theorem C103_swap_dangles (h : KsTables mc c tr) (prog : List KsCmd) (hv : ∀ x ∈ prog, x.Valid c) (hs : ∀ x ∈ prog, x.Single) (i j : Nat)
    (hi : i < (ksSpec tr [] prog).1.length) (hj : j < (ksSpec tr [] prog).1.length) (hij : i ≠ j) :
    (∀ k, k < 2 ^ c.maxBits →
      KsHeap.empty.exec mc c (prog ++ (ksSwap i j (ksSpec tr [] prog).1.length ++ [.call j (.find k)])) = .error .undef) ∧
    KsHeap.empty.exec mc c (prog ++ (ksSwap i j (ksSpec tr [] prog).1.length ++ [.destroy j])) = .error .doubleFree := by
  obtain ⟨R, s, l, a, b, e⟩ := ks_reach h hv hs
  rw [← e, List.length_map] at hi hj ⊢
  have hx : l[i]? = some l[i] := List.getElem?_eq_getElem hi
  have hy : l[j]? = some l[j] := List.getElem?_eq_getElem hj
  generalize l[i] = x at hx
  generalize l[j] = y at hy
  have hp : s.ads[i]? = some x.p := by rw [b.ads, List.getElem?_map, hx]; rfl
  have hq : s.ads[j]? = some y.p := by rw [b.ads, List.getElem?_map, hy]; rfl
  have hlen : s.ads.length = l.length := by rw [b.ads, List.length_map]
  have hxl := (b.ok x (List.mem_of_getElem? hx)).len
  have hne : x.p ≠ [] := by
    intro e0
    rw [e0] at hxl
    have := h.len
    simp at *
    omega
  obtain ⟨mem', d1, d2, _⟩ := b.destroy hx
  have g1 : (s.ads ++ [x.p])[i]? = some x.p := by rw [List.getElem?_append_left (by omega)]; exact hp
  have g2 : (s.ads ++ [x.p])[j]? = some y.p := by rw [List.getElem?_append_left (by omega)]; exact hq
  have g3 : ((s.ads ++ [x.p]).set i y.p)[j]? = some y.p := by rw [List.getElem?_set_ne hij]; exact g2
  have g4 : ((s.ads ++ [x.p]).set i y.p)[l.length]? = some x.p := by rw [List.getElem?_set_ne (by omega), ← hlen]; simp
  have g5 : (((s.ads ++ [x.p]).set i y.p).set j x.p)[l.length]? = some x.p := by rw [List.getElem?_set_ne (by omega)]; exact g4
  have g6 : ((((s.ads ++ [x.p]).set i y.p).set j x.p).eraseIdx l.length)[j]? = some x.p := by
    rw [List.getElem?_eraseIdx_of_lt (by omega), List.getElem?_set_self (by simp; omega)]
  refine ⟨fun k hk => ?_, ?_⟩
  · have hsl := c.slot_lt h.bits h.len hk
    have hz : x.p[c.slot k]? = some (x.p[c.slot k]'(by omega)) := List.getElem?_eq_getElem _
    generalize x.p[c.slot k]'(by omega) = z at hz
    rw [KsHeap.exec_append, a, ok_bind]
    simp only [ksSwap, List.cons_append, List.nil_append, KsHeap.exec, hp, ok_bind, KsHeap.cmd, g1, g2, g3, g4, g5, g6, d1, pure_eq_ok,
      KsCfg.callAt, ksKeyed, ksDeref, hz, d2 z (List.mem_of_getElem? hz), error_bind]
  · rw [KsHeap.exec_append, a, ok_bind]
    simp only [ksSwap, List.cons_append, List.nil_append, KsHeap.exec, hp, ok_bind, KsHeap.cmd, g1, g2, g3, g4, g5, g6, d1, pure_eq_ok,
      ksDelete_twice hne d2, error_bind]

/-- The claim is false for all adapters. -/
theorem C103_not (h : KsTables mc c tr) : ¬ C103Claim mc c tr := by
  intro hc
  have hd := C103_copy_double_delete h [.new] (by simp [KsCmd.Valid]) (by simp [KsCmd.Single]) 0 (by simp [ksSpec, ksSpecCmd])
  obtain ⟨s, mem, h1, _⟩ := hc _ (fun x hx => by
    show x.Valid c
    have : x ∈ ([.new, .copy 0, .destroy 0, .destroy 0] : List KsCmd) := hx
    simp only [List.mem_cons, List.not_mem_nil, or_false] at this
    rcases this with rfl | rfl | rfl | rfl <;> trivial)
  cases hd.symm.trans h1

/-! ## The three maps -/

/-- tables of `ksEx` -/
theorem ksEx_tables : KsTables (tabClass (sepMap { kops := plainOps 64, vops := plainOps 16, strat := .arbitrary, maxBucket := 3 } (.xorshift 64)) 16) ksEx
    (fun v => v % 2 ^ 16) := ksTables_separate (by decide) (by decide) ksExOK

/-- two adapters, the first is destroyed in between -/
def ksOwnEx : List KsCmd := [.new, .call 0 (.assign 5 7), .new, .call 1 (.assign (2 ^ 29) 8), .call 0 (.find 5), .call 1 (.find 5), .destroy 0, .call 0 (.find (2 ^ 29)),
  .new]

theorem ksOwnEx_ok : (∀ x ∈ ksOwnEx, x.Valid ksEx) ∧ ∀ x ∈ ksOwnEx, x.Single := by
  constructor
  · intro x hx
    simp only [ksOwnEx, List.mem_cons, List.not_mem_nil, or_false] at hx
    rcases hx with rfl | rfl | rfl | rfl | rfl | rfl | rfl | rfl | rfl <;> try trivial
    all_goals
      intro k hk
      cases hk
      decide
  · intro x hx
    simp only [ksOwnEx, List.mem_cons, List.not_mem_nil, or_false] at hx
    rcases hx with rfl | rfl | rfl | rfl | rfl | rfl | rfl | rfl | rfl <;> trivial

example := C103_adapters_partial ksEx_tables ksOwnEx ksOwnEx_ok.1 ksOwnEx_ok.2

/-- the answers of the example -/
example : (ksSpec (fun v => v % 2 ^ 16) [] ksOwnEx).2 = [.none, .none, .pair 5 7, .absent, .pair (2 ^ 29) 8] := by decide +kernel

example := C103_copy_double_delete ksEx_tables ksOwnEx ksOwnEx_ok.1 ksOwnEx_ok.2 1 (by simp [ksSpec, ksSpecCmd, ksOwnEx])
example := C103_copy_shares ksEx_tables ksOwnEx ksOwnEx_ok.1 ksOwnEx_ok.2 0 (by simp [ksSpec, ksSpecCmd, ksOwnEx]) 5 9 (by decide)
example := C103_swap_dangles ksEx_tables ksOwnEx ksOwnEx_ok.1 ksOwnEx_ok.2 0 1 (by simp [ksSpec, ksSpecCmd, ksOwnEx]) (by simp [ksSpec, ksSpecCmd, ksOwnEx]) (by decide)

/-- with independent copies `C103_copy_shares` would answer with the old value -/
example : (ksSpec (fun v => v % 2 ^ 16) [] [.new, .call 0 (.assign 5 7), .copy 0, .call 1 (.assign 5 9), .call 0 (.find 5)]).2 = [.none, .none, .pair 5 7] := by
  decide +kernel

/-- compact tables and group tables with widths 10, 20 and 30 -/
example : KsTables (tabClass (cmpMap cmpEx (.xorshift 64)) 20) ⟨30, 3⟩ (fun v => v % 2 ^ 20) := ksTables_compact (by decide) (by decide) (fun i hi =>
  have hw : (KsCfg.mk 30 3).width i = 10 ∨ (KsCfg.mk 30 3).width i = 20 ∨ (KsCfg.mk 30 3).width i = 30 := by revert i; decide
  { stor := by simp [VarCfg.good, cmpEx]
    hash := by simp only [HashKind.Supports]; omega
    vw_pos := by decide
    vw_le := by decide })

example : KsTables (tabClass (grpMap grpEx (.xorshift 64)) 20) ⟨30, 3⟩ (fun v => v % 2 ^ 20) := ksTables_group (by decide) (by decide) (fun i hi =>
  have hw : (KsCfg.mk 30 3).width i = 10 ∨ (KsCfg.mk 30 3).width i = 20 ∨ (KsCfg.mk 30 3).width i = 30 := by revert i; decide
  { hash := by simp only [HashKind.Supports]; omega
    vw_pos := by decide
    vw_le := by decide })

end SC
