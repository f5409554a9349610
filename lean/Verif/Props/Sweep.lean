import Verif.Table.Sweep
import Verif.Props.Table
import Verif.Props.Compact
import Verif.Props.Group
/-!
# Properties of loops that change the table: C73, C74

For `separate_chaining_map`, `compact_chaining_map` and `group_chaining_table` without overflow table.
-/
namespace SC

variable {KB VB : Type} {p : SepCfg KB VB} {hk : HashKind} {tr : Nat → Nat → Nat} {W kw vw : Nat} {cv : VarCfg} {cg : GrpCfg}

/-! ## C73 -/

/-- **C73** for `separate_chaining_map`: a loop from `rbegin_nav()` to `rend_nav()`, or from any element that `find` gives, that keeps, erases or
overwrites the current element as `act key value` says visits every element up to the first one exactly once, with its old value, and leaves
exactly the elements it should, in the old order. -/
theorem C73_separate_sweep (h : SepOK p hk tr W kw vw) {ops : List MapOp} (hops : ∀ op ∈ ops, SepValid hk W kw op)
    {t : Tab (SepStore KB VB) Unit} (ht : SepAfter p hk kw vw ops t) (act : Nat → Nat → LoopAct) :
    (t.size ≠ 0 → SweepSpec (sepMap p hk) (tr vw) kw (SepValid hk W kw) act t) ∧
    SweepFromSpec (sepMap p hk) (tr vw) kw (SepValid hk W kw) act t := by
  obtain ⟨P, hP, hs, e1, e2, e3⟩ := sep_sem h hops ht
  rw [← e3]
  subst e1
  exact ⟨fun hne => fact_sweep hP.laws (fun _ _ x _ => hP.normA x) hP.noOverflow hP.grow65 (fun op => hP.opOK) hs hne,
    fact_sweepFrom hP.laws (fun _ _ x _ => hP.normA x) hP.noOverflow hP.grow65 (fun op => hP.opOK) hs⟩

/-- **C73** for `compact_chaining_map` -/
theorem C73_compact_sweep (h : CmpOK cv hk kw vw) {ops : List MapOp} (hops : ∀ op ∈ ops, CmpValid hk kw op)
    {t : Tab CmpStore Unit} (ht : After (cmpMap cv hk) kw vw ops t) (act : Nat → Nat → LoopAct) :
    (t.size ≠ 0 → SweepSpec (cmpMap cv hk) (fun v => v % 2 ^ vw) kw (CmpValid hk kw) act t) ∧
    SweepFromSpec (cmpMap cv hk) (fun v => v % 2 ^ vw) kw (CmpValid hk kw) act t := by
  have hc := h.covered (c := cv)
  have hs := hc.sem hops ht
  have h1 := fun hne => fact_sweep hc.laws (act := act) (fun _ _ x _ => hc.normA x) hc.noOverflow hc.grow65 (fun op => hc.opOK) hs hne
  have h2 := fact_sweepFrom hc.laws (act := act) (fun _ _ x _ => hc.normA x) hc.noOverflow hc.grow65 (fun op => hc.opOK) hs
  rw [hc.norm, hc.kw] at h1 h2
  exact ⟨h1, h2⟩

/-- **C73** for `group_chaining_table`, from any element that `find` gives (its `rbegin_nav()` does not work: C44) -/
theorem C73_group_sweep (h : GrpOK hk kw vw) {ops : List MapOp} (hops : ∀ op ∈ ops, GrpValid hk kw op)
    {t : Tab GrpStore Unit} (ht : After (grpMap cg hk) kw vw ops t) (act : Nat → Nat → LoopAct) :
    SweepFromSpec (grpMap cg hk) (fun v => v % 2 ^ vw) kw (GrpValid hk kw) act t := by
  have hc := h.covered (c := cg) (sp := cg.strict) id
  have hs := hc.sem hops ht
  have h2 := fact_sweepFrom hc.laws (act := act) (fun _ _ x _ => hc.normA x) hc.noOverflow hc.grow65 (fun op => hc.opOK) hs
  rw [hc.norm, hc.kw] at h2
  exact h2

/-- keep the even values, erase those divisible by three, add one to the others -/
def exAct (_ v : Nat) : LoopAct := if v % 2 = 0 then .keep else if v % 3 = 0 then .erase else .assign (v + 1)

example : ∃ t, SepAfter exCfg (.xorshift 16) 10 20 exOps t ∧ t.size ≠ 0 ∧
    SweepSpec (sepMap exCfg (.xorshift 16)) (fun v => v % 2 ^ 32) 10 (SepValid (.xorshift 16) 16 10) exAct t := by
  obtain ⟨t, ht, _, h2⟩ := exAfter
  exact ⟨t, ht, by omega, (C73_separate_sweep exOK exOps_valid ht exAct).1 (by omega)⟩

/-- in a table with ten elements the loop keeps some, erases some and changes some -/
example : ∃ t l t', After (cmpMap cmpEx (.xorshift 64)) 11 13 ((List.range 10).map (fun i => .insert (37 * i) (5 * i))) t ∧
    t.pairs (cmpMap cmpEx (.xorshift 64)) = .ok l ∧ t.sweepAll (cmpMap cmpEx (.xorshift 64)) exAct = .ok (t', l.reverse) ∧
    l.length = 10 ∧ t'.size = 8 := by
  have h : (match Tab.run (cmpMap cmpEx (.xorshift 64)) (Tab.new (cmpMap cmpEx (.xorshift 64)) 11 13)
      ((List.range 10).map (fun i => .insert (37 * i) (5 * i))) with
    | .ok (t, _) => t.size == 10 && (match t.pairs (cmpMap cmpEx (.xorshift 64)), t.sweepAll (cmpMap cmpEx (.xorshift 64)) exAct with
      | .ok l, .ok (t', l') => l.length == 10 && t'.size == 8 && l' == l.reverse
      | _, _ => false)
    | .error _ => false) = true := by decide +kernel
  obtain ⟨t, ht⟩ := C37_compact_map_semantics cmpExOK ((List.range 10).map (fun i => .insert (37 * i) (5 * i))) (by decide +kernel)
  rw [ht] at h
  cases hp : t.pairs (cmpMap cmpEx (.xorshift 64)) with
  | error e => simp [hp] at h
  | ok l =>
    cases hw : t.sweepAll (cmpMap cmpEx (.xorshift 64)) exAct with
    | error e => simp [hp, hw] at h
    | ok r =>
      simp only [hp, hw, Bool.and_eq_true, beq_iff_eq] at h
      refine ⟨t, l, r.1, ⟨_, ht⟩, hp, ?_, h.2.1.1, h.2.1.2⟩
      rw [← h.2.2]; exact hw

example : ∃ t, After (grpMap grpEx (.xorshift 64)) 11 13 grpExOps t ∧ t.size = 40 ∧
    SweepFromSpec (grpMap grpEx (.xorshift 64)) (fun v => v % 2 ^ 13) 11 (GrpValid (.xorshift 64) 11) exAct t := by
  obtain ⟨t, ht, _, h2, _⟩ := grpExAfter
  exact ⟨t, ht, h2, C73_group_sweep grpExOK grpExOps_valid ht exAct⟩

/-! ## C74 -/

/-- **C74** for `separate_chaining_map`: the loop from `begin_nav()` to `end_nav()` that assigns `f key value` to every element visits every
element exactly once, with its old value, and afterwards every key has its new value (as far as it can be stored), in the old order. -/
theorem C74_separate_update (h : SepOK p hk tr W kw vw) {ops : List MapOp} (hops : ∀ op ∈ ops, SepValid hk W kw op)
    {t : Tab (SepStore KB VB) Unit} (ht : SepAfter p hk kw vw ops t) (f : Nat → Nat → Nat) :
    UpdateSpec (sepMap p hk) (tr vw) kw (SepValid hk W kw) f t := by
  obtain ⟨P, hP, hs, e1, e2, e3⟩ := sep_sem h hops ht
  rw [← e3]
  subst e1
  exact fact_update hP.laws (fun k v => hP.normA (f k v)) hP.noOverflow hP.grow65 (fun op => hP.opOK) hs

/-- **C74** for `compact_chaining_map` -/
theorem C74_compact_update (h : CmpOK cv hk kw vw) {ops : List MapOp} (hops : ∀ op ∈ ops, CmpValid hk kw op)
    {t : Tab CmpStore Unit} (ht : After (cmpMap cv hk) kw vw ops t) (f : Nat → Nat → Nat) :
    UpdateSpec (cmpMap cv hk) (fun v => v % 2 ^ vw) kw (CmpValid hk kw) f t := by
  have hc := h.covered (c := cv)
  have h1 := fact_update hc.laws (fun k v => hc.normA (f k v)) hc.noOverflow hc.grow65 (fun op => hc.opOK) (hc.sem hops ht)
  rw [hc.norm, hc.kw] at h1
  exact h1

/-- **C74** for `group_chaining_table` -/
theorem C74_group_update (h : GrpOK hk kw vw) {ops : List MapOp} (hops : ∀ op ∈ ops, GrpValid hk kw op)
    {t : Tab GrpStore Unit} (ht : After (grpMap cg hk) kw vw ops t) (f : Nat → Nat → Nat) :
    UpdateSpec (grpMap cg hk) (fun v => v % 2 ^ vw) kw (GrpValid hk kw) f t := by
  have hc := h.covered (c := cg) (sp := cg.strict) id
  have h1 := fact_update hc.laws (fun k v => hc.normA (f k v)) hc.noOverflow hc.grow65 (fun op => hc.opOK) (hc.sem hops ht)
  rw [hc.norm, hc.kw] at h1
  exact h1

example : ∃ t, SepAfter exCfg (.xorshift 16) 10 20 exOps t ∧ t.size = 60 ∧
    UpdateSpec (sepMap exCfg (.xorshift 16)) (fun v => v % 2 ^ 32) 10 (SepValid (.xorshift 16) 16 10) (fun k v => k + 2 * v) t := by
  obtain ⟨t, ht, _, h2⟩ := exAfter
  exact ⟨t, ht, h2, C74_separate_update exOK exOps_valid ht _⟩

example : ∃ t, After (cmpMap cmpEx (.xorshift 64)) 11 13 cmpExOps t ∧ t.size = 40 ∧
    UpdateSpec (cmpMap cmpEx (.xorshift 64)) (fun v => v % 2 ^ 13) 11 (CmpValid (.xorshift 64) 11) (fun k v => k + 2 * v) t := by
  obtain ⟨t, ht, _, h2⟩ := cmpExAfter
  exact ⟨t, ht, h2, C74_compact_update cmpExOK cmpExOps_valid ht _⟩

example : ∃ t, After (grpMap grpEx (.xorshift 64)) 11 13 grpExOps t ∧ t.size = 40 ∧
    UpdateSpec (grpMap grpEx (.xorshift 64)) (fun v => v % 2 ^ 13) 11 (GrpValid (.xorshift 64) 11) (fun k v => k + 2 * v) t := by
  obtain ⟨t, ht, _, h2, _⟩ := grpExAfter
  exact ⟨t, ht, h2, C74_group_update grpExOK grpExOps_valid ht _⟩

end SC
