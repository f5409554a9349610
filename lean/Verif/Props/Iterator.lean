import Verif.Table.Bidi
import Verif.Props.Table
import Verif.Props.Compact
import Verif.Props.Group
/-!
# Properties of navigators and iterators: C66 - C68

For `separate_chaining_map`, `compact_chaining_map` and `group_chaining_table` without overflow table.  (With overflow table: C52, C64.)
-/
namespace SC

variable {KB VB : Type} {p : SepCfg KB VB} {hk : HashKind} {tr : Nat → Nat → Nat} {W kw vw : Nat} {cv : VarCfg} {cg : GrpCfg}

/-! ## C66 -/

/-- **C66** for `separate_chaining_map`: any sequence of `++` and `--` from `begin_nav()` on that stays between the first element and
the position behind the last one leads to the element at the resulting index of the forward order; two such navigators are equal exactly
if they are at the same index. -/
theorem C66_separate_bidirectional (h : SepOK p hk tr W kw vw) {ops : List MapOp} (hops : ∀ op ∈ ops, SepValid hk W kw op)
    {t : Tab (SepStore KB VB) Unit} (ht : SepAfter p hk kw vw ops t) : BidiSpec (sepMap p hk) t ∧ SamePlaceSpec (sepMap p hk) t := by
  obtain ⟨P, hP, hs, _⟩ := sep_sem h hops ht
  exact ⟨fact_bidi hP.laws rfl hP.noOverflow hs, fact_samePlace hP.laws rfl hP.noOverflow hs⟩

/-- **C66** for `compact_chaining_map` -/
theorem C66_compact_bidirectional (h : CmpOK cv hk kw vw) {ops : List MapOp} (hops : ∀ op ∈ ops, CmpValid hk kw op)
    {t : Tab CmpStore Unit} (ht : After (cmpMap cv hk) kw vw ops t) : BidiSpec (cmpMap cv hk) t ∧ SamePlaceSpec (cmpMap cv hk) t :=
  ⟨fact_bidi h.covered.laws rfl h.covered.noOverflow (h.covered.sem hops ht), fact_samePlace h.covered.laws rfl h.covered.noOverflow (h.covered.sem hops ht)⟩

/-- **C66** for `group_chaining_table` -/
theorem C66_group_bidirectional (h : GrpOK hk kw vw) {ops : List MapOp} (hops : ∀ op ∈ ops, GrpValid hk kw op)
    {t : Tab GrpStore Unit} (ht : After (grpMap cg hk) kw vw ops t) : BidiSpec (grpMap cg hk) t ∧ SamePlaceSpec (grpMap cg hk) t :=
  have hc := h.covered (c := cg) (sp := cg.strict) id
  ⟨fact_bidi hc.laws rfl hc.noOverflow (hc.sem hops ht), fact_samePlace hc.laws rfl hc.noOverflow (hc.sem hops ht)⟩

/-- A table with 60 elements: 40 steps forward and 25 back lead to the element number 15; all 60 forward and one back lead to the last one. -/
example : ∃ t, SepAfter exCfg (.xorshift 16) 10 20 exOps t ∧ t.size = 60 ∧
    Seq.steps 60 0 (List.replicate 40 true ++ List.replicate 25 false) = some 15 ∧
    Seq.steps 60 0 (List.replicate 60 true ++ [false]) = some 59 ∧ BidiSpec (sepMap exCfg (.xorshift 16)) t := by
  obtain ⟨t, ht, _, h2⟩ := exAfter
  exact ⟨t, ht, h2, by decide +kernel, by decide +kernel, (C66_separate_bidirectional exOK exOps_valid ht).1⟩

example : ∃ t, After (cmpMap cmpEx (.xorshift 64)) 11 13 cmpExOps t ∧ t.size = 40 ∧ BidiSpec (cmpMap cmpEx (.xorshift 64)) t := by
  obtain ⟨t, ht, _, h2⟩ := cmpExAfter
  exact ⟨t, ht, h2, (C66_compact_bidirectional cmpExOK cmpExOps_valid ht).1⟩

example : ∃ t, After (grpMap grpEx (.xorshift 64)) 11 13 grpExOps t ∧ t.size = 40 ∧ BidiSpec (grpMap grpEx (.xorshift 64)) t := by
  obtain ⟨t, ht, _, h2, _⟩ := grpExAfter
  exact ⟨t, ht, h2, (C66_group_bidirectional grpExOK grpExOps_valid ht).1⟩

/-! ## C67 -/

/-- **C67** is false for every table with at least two elements: after `++it; --it;` the iterator equals `begin()`, but `*it` is not
`*begin()`. -/
theorem C67_separate_iterator_false (h : SepOK p hk tr W kw vw) {ops : List MapOp} (hops : ∀ op ∈ ops, SepValid hk W kw op)
    {t : Tab (SepStore KB VB) Unit} (ht : SepAfter p hk kw vw ops t) (hsz : 2 ≤ t.size) : StaleSpec (sepMap p hk) t := by
  obtain ⟨P, hP, hs, _⟩ := sep_sem h hops ht
  exact fact_stale hP.laws rfl hP.noOverflow hs hsz

theorem C67_compact_iterator_false (h : CmpOK cv hk kw vw) {ops : List MapOp} (hops : ∀ op ∈ ops, CmpValid hk kw op)
    {t : Tab CmpStore Unit} (ht : After (cmpMap cv hk) kw vw ops t) (hsz : 2 ≤ t.size) : StaleSpec (cmpMap cv hk) t :=
  fact_stale h.covered.laws rfl h.covered.noOverflow (h.covered.sem hops ht) hsz

theorem C67_group_iterator_false (h : GrpOK hk kw vw) {ops : List MapOp} (hops : ∀ op ∈ ops, GrpValid hk kw op)
    {t : Tab GrpStore Unit} (ht : After (grpMap cg hk) kw vw ops t) (hsz : 2 ≤ t.size) : StaleSpec (grpMap cg hk) t :=
  have hc := h.covered (c := cg) (sp := cg.strict) id
  fact_stale hc.laws rfl hc.noOverflow (hc.sem hops ht) hsz

example : ∃ t, SepAfter exCfg (.xorshift 16) 10 20 exOps t ∧ StaleSpec (sepMap exCfg (.xorshift 16)) t := by
  obtain ⟨t, ht, _, h2⟩ := exAfter
  exact ⟨t, ht, C67_separate_iterator_false exOK exOps_valid ht (by omega)⟩

/-- **C67**, negation of the property: `*it` is what a navigator at the same place shows -/
theorem C67_iterator_not :
    ¬ ∀ (ops : List MapOp) (t : Tab (SepStore PlainB PlainB) Unit), (∀ op ∈ ops, SepValid (.xorshift 16) 16 10 op) →
      SepAfter exCfg (.xorshift 16) 10 20 ops t → ∀ ms it, t.beginIsteps (sepMap exCfg (.xorshift 16)) ms = .ok it →
      t.navEq (sepMap exCfg (.xorshift 16)) it.nav Nav.end_ = .ok false →
      t.keyAt (sepMap exCfg (.xorshift 16)) it.nav = .ok it.pair.1 := by
  intro hall
  have hv : ∀ op ∈ [MapOp.insert 5 1, MapOp.insert 6 1], SepValid (.xorshift 16) 16 10 op := by decide +kernel
  obtain ⟨t, ht⟩ := sep_exists exOK hv
  have hw : (match Tab.run (sepMap exCfg (.xorshift 16)) (Tab.new (sepMap exCfg (.xorshift 16)) 10 20)
      [MapOp.insert 5 1, MapOp.insert 6 1] with
    | .ok (t, _) => (match t.beginIsteps (sepMap exCfg (.xorshift 16)) [true, false] with
      | .ok it => t.navEq (sepMap exCfg (.xorshift 16)) it.nav Nav.end_ == .ok false &&
          t.keyAt (sepMap exCfg (.xorshift 16)) it.nav != .ok it.pair.1
      | .error _ => false)
    | .error _ => false) = true := by decide +kernel
  obtain ⟨as, ha⟩ := ht
  rw [ha] at hw
  simp only at hw
  cases hi : t.beginIsteps (sepMap exCfg (.xorshift 16)) [true, false] with
  | error e => rw [hi] at hw; cases hw
  | ok it =>
    rw [hi] at hw
    simp only [Bool.and_eq_true, beq_iff_eq, bne_iff_ne] at hw
    exact hw.2 (hall _ t hv ⟨as, ha⟩ _ it hi hw.1)

/-- The part of **C67** that holds for `separate_chaining_map`: as long as it is moved by `++` only, `*it` is the pair the iterator is at;
a range-based `for` loop sees every pair exactly once; `find(k)` shows `k` with its value.  With `--`, the iterator is where a navigator
would be, and `*it` is the pair of the last `++` that led to an element.  Missing: `*it` after `--`. -/
theorem C67_separate_iterator_partial (h : SepOK p hk tr W kw vw) {ops : List MapOp} (hops : ∀ op ∈ ops, SepValid hk W kw op)
    {t : Tab (SepStore KB VB) Unit} (ht : SepAfter p hk kw vw ops t) :
    IterUpSpec (sepMap p hk) t ∧ IterSpec (sepMap p hk) t ∧
    ∀ k < 2 ^ kw, ∃ it, t.findIter (sepMap p hk) k = .ok it ∧
      t.navEq (sepMap p hk) it.nav Nav.end_ = .ok ((FMap.empty.after (tr vw) ops).get k).isNone ∧
      ∀ v, (FMap.empty.after (tr vw) ops).get k = some v → it.pair = (k, v) := by
  obtain ⟨P, hP, hs, rfl, rfl, _⟩ := sep_sem h hops ht
  refine ⟨fact_iterUp hP.laws rfl hP.noOverflow hs, fact_iter hP.laws rfl hP.noOverflow hs, fun k hk' => ?_⟩
  obtain ⟨it, h1, h2, h3⟩ := fact_findIter (hs.tb_lt hP.laws) (hs.lookup hP.laws hk')
  exact ⟨it, h1, by simpa using h2, fun v hv => h3 _ (by rw [hv]; rfl)⟩

/-- The part of **C67** that holds for `compact_chaining_map` -/
theorem C67_compact_iterator_partial (h : CmpOK cv hk kw vw) {ops : List MapOp} (hops : ∀ op ∈ ops, CmpValid hk kw op)
    {t : Tab CmpStore Unit} (ht : After (cmpMap cv hk) kw vw ops t) :
    IterUpSpec (cmpMap cv hk) t ∧ IterSpec (cmpMap cv hk) t ∧
    ∀ k < 2 ^ kw, ∃ it, t.findIter (cmpMap cv hk) k = .ok it ∧
      t.navEq (cmpMap cv hk) it.nav Nav.end_ = .ok ((FMap.empty.after (fun v => v % 2 ^ vw) ops).get k).isNone ∧
      ∀ v, (FMap.empty.after (fun v => v % 2 ^ vw) ops).get k = some v → it.pair = (k, v) := by
  have hc := h.covered
  have hs := hc.sem hops ht
  refine ⟨fact_iterUp hc.laws rfl hc.noOverflow hs, fact_iter hc.laws rfl hc.noOverflow hs, fun k hk' => ?_⟩
  obtain ⟨it, h1, h2, h3⟩ := fact_findIter (hs.tb_lt hc.laws) (hs.lookup hc.laws hk')
  exact ⟨it, h1, by simpa using h2, fun v hv => h3 _ (by rw [hv]; rfl)⟩

/-- The part of **C67** that holds for `group_chaining_table` -/
theorem C67_group_iterator_partial (h : GrpOK hk kw vw) {ops : List MapOp} (hops : ∀ op ∈ ops, GrpValid hk kw op)
    {t : Tab GrpStore Unit} (ht : After (grpMap cg hk) kw vw ops t) :
    IterUpSpec (grpMap cg hk) t ∧ IterSpec (grpMap cg hk) t ∧
    ∀ k < 2 ^ kw, ∃ it, t.findIter (grpMap cg hk) k = .ok it ∧
      t.navEq (grpMap cg hk) it.nav Nav.end_ = .ok ((FMap.empty.after (fun v => v % 2 ^ vw) ops).get k).isNone ∧
      ∀ v, (FMap.empty.after (fun v => v % 2 ^ vw) ops).get k = some v → it.pair = (k, v) := by
  have hc := h.covered (c := cg) (sp := cg.strict) id
  have hs := hc.sem hops ht
  refine ⟨fact_iterUp hc.laws rfl hc.noOverflow hs, fact_iter hc.laws rfl hc.noOverflow hs, fun k hk' => ?_⟩
  obtain ⟨it, h1, h2, h3⟩ := fact_findIter (hs.tb_lt hc.laws) (hs.lookup hc.laws hk')
  exact ⟨it, h1, by simpa using h2, fun v hv => h3 _ (by rw [hv]; rfl)⟩

example : ∃ t, SepAfter exCfg (.xorshift 16) 10 20 exOps t ∧ t.size = 60 ∧ IterUpSpec (sepMap exCfg (.xorshift 16)) t := by
  obtain ⟨t, ht, _, h2⟩ := exAfter
  exact ⟨t, ht, h2, (C67_separate_iterator_partial exOK exOps_valid ht).1⟩

/-! ## C68 -/

/-- **C68** is false for every `separate_chaining_map` that is not empty: `--end_nav()` reads out of bounds, although the navigator that
reaches the end through `++` and equals `end_nav()` can be decremented. -/
theorem C68_separate_before_end_false (h : SepOK p hk tr W kw vw) {ops : List MapOp} (hops : ∀ op ∈ ops, SepValid hk W kw op)
    {t : Tab (SepStore KB VB) Unit} (ht : SepAfter p hk kw vw ops t) (hne : t.size ≠ 0) : t.prev (sepMap p hk) Nav.end_ = .error .oob := by
  obtain ⟨P, hP, hs, _⟩ := sep_sem h hops ht
  have L := hP.laws
  rcases hs.bidi L hP.noOverflow with ⟨h1, h2, _⟩ | ⟨c, full, hl, _⟩
  · obtain ⟨l, g1, g2⟩ := (fact_size L hP.noOverflow hs).2.1
    rw [h2] at g1; cases g1; exact absurd g2.symm hne
  · obtain ⟨knorm, KRep, VRep, e, _⟩ := hP.buckets
    have hr := hl.rep
    rw [e] at hr
    have hn : t.store.n = 2 ^ t.tb := hr.n
    have htb := Nat.pow_lt_pow_right (show 1 < 2 by decide) (hl.tb_lt L)
    refine prev_end rfl rfl ?_
    show (do let x ← t.store.get NPOS; return x.size : Res Nat) = _
    unfold SepStore.get
    rw [hn, if_neg (by unfold NPOS; omega)]
    rfl

theorem C68_compact_before_end_false (h : CmpOK cv hk kw vw) {ops : List MapOp} (hops : ∀ op ∈ ops, CmpValid hk kw op)
    {t : Tab CmpStore Unit} (ht : After (cmpMap cv hk) kw vw ops t) (hne : t.size ≠ 0) : t.prev (cmpMap cv hk) Nav.end_ = .error .oob := by
  have hc := h.covered
  have hs := hc.sem hops ht
  have L := hc.laws
  rcases hs.bidi L hc.noOverflow with ⟨h1, h2, _⟩ | ⟨c, full, hl, _⟩
  · obtain ⟨l, g1, g2⟩ := (fact_size L hc.noOverflow hs).2.1
    rw [h2] at g1; cases g1; exact absurd g2.symm hne
  · have hr : CmpRep cv t.store (t.dim (cmpMap cv hk)) c := hl.rep
    have hn : t.store.n = 2 ^ t.tb := hr.n
    have htb := Nat.pow_lt_pow_right (show 1 < 2 by decide) (hl.tb_lt L)
    refine prev_end rfl rfl ?_
    show (do let x ← t.store.get NPOS; return x.size : Res Nat) = _
    unfold CmpStore.get
    rw [hn, if_neg (by unfold NPOS; omega)]
    rfl

theorem C68_group_before_end_false (h : GrpOK hk kw vw) {ops : List MapOp} (hops : ∀ op ∈ ops, GrpValid hk kw op)
    {t : Tab GrpStore Unit} (ht : After (grpMap cg hk) kw vw ops t) (hne : t.size ≠ 0) : t.prev (grpMap cg hk) Nav.end_ = .error .oob := by
  have hc := h.covered (c := cg) (sp := cg.strict) id
  have hs := hc.sem hops ht
  have L := hc.laws
  rcases hs.bidi L hc.noOverflow with ⟨h1, h2, _⟩ | ⟨c, full, hl, _⟩
  · obtain ⟨l, g1, g2⟩ := (fact_size L hc.noOverflow hs).2.1
    rw [h2] at g1; cases g1; exact absurd g2.symm hne
  · have hr : GrpRep cg.strict t.store (t.dim (grpMap cg hk)) c := hl.rep
    have hn : t.store.n = 2 ^ t.tb / t.bpg + 1 := hr.n
    have hp : 1 ≤ t.bpg := (hl.good L).bpg_pos
    have hb : t.bpg ≤ 255 := by have := (hl.good L).bpg_le; have : t.bpg ≤ 64 := this; omega
    have htb : 2 ^ t.tb ≤ 2 ^ 63 := Nat.pow_le_pow_right (by decide) (by have := hl.tb_lt L; omega)
    have hle : 2 ^ t.tb / t.bpg + 1 ≤ NPOS / t.bpg := by
      rw [Nat.le_div_iff_mul_le hp, Nat.add_mul]
      have := Nat.div_mul_le_self (2 ^ t.tb) t.bpg
      unfold NPOS; omega
    refine prev_end rfl rfl ?_
    show (do let x ← t.store.get (NPOS / t.bpg); x.bucketsize cg (NPOS % t.bpg) : Res Nat) = _
    unfold GrpStore.get
    rw [hn, if_neg (by omega)]
    rfl

/-- The part of **C68** that holds: a navigator that arrives at the end by `++` (which equals `end_nav()`) goes back to the last element by
`--`.  Missing: the navigator that `end_nav()` returns. -/
theorem C68_separate_before_end_partial (h : SepOK p hk tr W kw vw) {ops : List MapOp} (hops : ∀ op ∈ ops, SepValid hk W kw op)
    {t : Tab (SepStore KB VB) Unit} (ht : SepAfter p hk kw vw ops t) (hne : t.size ≠ 0) : LastSpec (sepMap p hk) t := by
  obtain ⟨P, hP, hs, _⟩ := sep_sem h hops ht
  exact fact_last hP.laws rfl hP.noOverflow hs hne

theorem C68_compact_before_end_partial (h : CmpOK cv hk kw vw) {ops : List MapOp} (hops : ∀ op ∈ ops, CmpValid hk kw op)
    {t : Tab CmpStore Unit} (ht : After (cmpMap cv hk) kw vw ops t) (hne : t.size ≠ 0) : LastSpec (cmpMap cv hk) t :=
  fact_last h.covered.laws rfl h.covered.noOverflow (h.covered.sem hops ht) hne

theorem C68_group_before_end_partial (h : GrpOK hk kw vw) {ops : List MapOp} (hops : ∀ op ∈ ops, GrpValid hk kw op)
    {t : Tab GrpStore Unit} (ht : After (grpMap cg hk) kw vw ops t) (hne : t.size ≠ 0) : LastSpec (grpMap cg hk) t :=
  have hc := h.covered (c := cg) (sp := cg.strict) id
  fact_last hc.laws rfl hc.noOverflow (hc.sem hops ht) hne

example : ∃ t, SepAfter exCfg (.xorshift 16) 10 20 exOps t ∧ t.prev (sepMap exCfg (.xorshift 16)) Nav.end_ = .error .oob := by
  obtain ⟨t, ht, _, h2⟩ := exAfter
  exact ⟨t, ht, C68_separate_before_end_false exOK exOps_valid ht (by omega)⟩

end SC
