import Verif.Table.Forward
import Verif.Props.Table
import Verif.Props.Compact
import Verif.Props.Group
/-!
# Erasing elements in a forward loop: C105

For `separate_chaining_map`, `compact_chaining_map` and `group_chaining_table` without overflow table.
-/
namespace SC

variable {KB VB : Type} {p : SepCfg KB VB} {hk : HashKind} {tr : Nat → Nat → Nat} {W kw vw : Nat} {cv : VarCfg} {cg : GrpCfg}

/-- **C105** for `separate_chaining_map`: a loop from `begin_nav()` to `end_nav()` that keeps, erases or overwrites the current element as
`act key value` says does exactly what `forwardPairs` says. -/
theorem C105_separate_forward (h : SepOK p hk tr W kw vw) {ops : List MapOp} (hops : ∀ op ∈ ops, SepValid hk W kw op)
    {t : Tab (SepStore KB VB) Unit} (ht : SepAfter p hk kw vw ops t) (mode : AfterErase) (act : Nat → Nat → LoopAct) :
    EraseForwardSpec (sepMap p hk) (tr vw) kw (SepValid hk W kw) mode act t := by
  obtain ⟨P, hP, hs, e1, e2, e3⟩ := sep_sem h hops ht
  rw [← e3]
  subst e1
  exact fact_eraseForward hP.laws (fun _ _ x _ => hP.normA x) hP.noOverflow hP.grow65 (fun op => hP.opOK) hs mode

/-- **C105** for `compact_chaining_map` -/
theorem C105_compact_forward (h : CmpOK cv hk kw vw) {ops : List MapOp} (hops : ∀ op ∈ ops, CmpValid hk kw op)
    {t : Tab CmpStore Unit} (ht : After (cmpMap cv hk) kw vw ops t) (mode : AfterErase) (act : Nat → Nat → LoopAct) :
    EraseForwardSpec (cmpMap cv hk) (fun v => v % 2 ^ vw) kw (CmpValid hk kw) mode act t := by
  have hc := h.covered (c := cv)
  have h1 := fact_eraseForward hc.laws (act := act) (fun _ _ x _ => hc.normA x) hc.noOverflow hc.grow65 (fun op => hc.opOK) (hc.sem hops ht) mode
  rw [hc.norm, hc.kw] at h1
  exact h1

/-- **C105** for `group_chaining_table` -/
theorem C105_group_forward (h : GrpOK hk kw vw) {ops : List MapOp} (hops : ∀ op ∈ ops, GrpValid hk kw op)
    {t : Tab GrpStore Unit} (ht : After (grpMap cg hk) kw vw ops t) (mode : AfterErase) (act : Nat → Nat → LoopAct) :
    EraseForwardSpec (grpMap cg hk) (fun v => v % 2 ^ vw) kw (GrpValid hk kw) mode act t := by
  have hc := h.covered (c := cg) (sp := cg.strict) id
  have h1 := fact_eraseForward hc.laws (act := act) (fun _ _ x _ => hc.normA x) hc.noOverflow hc.grow65 (fun op => hc.opOK) (hc.sem hops ht) mode
  rw [hc.norm, hc.kw] at h1
  exact h1

/-- **C105**: the loop that checks the navigator after every erasure visits every element exactly once and leaves exactly what it should, in all
three tables. -/
theorem C105_recheck (hs : SepOK p hk tr W kw vw) {hk' : HashKind} {kw' vw' : Nat} (hc : CmpOK cv hk' kw' vw') {hk'' : HashKind} {kw'' vw'' : Nat}
    (hg : GrpOK hk'' kw'' vw'') (act : Nat → Nat → LoopAct) :
    (∀ ops, (∀ op ∈ ops, SepValid hk W kw op) → ∀ t, SepAfter p hk kw vw ops t →
      ∃ l t', t.pairs (sepMap p hk) = .ok l ∧ t.forwardAll (sepMap p hk) .recheck act = .ok (t', l) ∧
        HoldsPairs (sepMap p hk) (tr vw) kw (SepValid hk W kw) (sweepPairs (tr vw) act l) t t') ∧
    (∀ ops, (∀ op ∈ ops, CmpValid hk' kw' op) → ∀ t, After (cmpMap cv hk') kw' vw' ops t →
      ∃ l t', t.pairs (cmpMap cv hk') = .ok l ∧ t.forwardAll (cmpMap cv hk') .recheck act = .ok (t', l) ∧
        HoldsPairs (cmpMap cv hk') (fun v => v % 2 ^ vw') kw' (CmpValid hk' kw') (sweepPairs (fun v => v % 2 ^ vw') act l) t t') ∧
    (∀ ops, (∀ op ∈ ops, GrpValid hk'' kw'' op) → ∀ t, After (grpMap cg hk'') kw'' vw'' ops t →
      ∃ l t', t.pairs (grpMap cg hk'') = .ok l ∧ t.forwardAll (grpMap cg hk'') .recheck act = .ok (t', l) ∧
        HoldsPairs (grpMap cg hk'') (fun v => v % 2 ^ vw'') kw'' (GrpValid hk'' kw'') (sweepPairs (fun v => v % 2 ^ vw'') act l) t t') :=
  ⟨fun _ hops _ ht => (C105_separate_forward hs hops ht .recheck act).recheck,
    fun _ hops _ ht => (C105_compact_forward hc hops ht .recheck act).recheck,
    fun _ hops _ ht => (C105_group_forward hg hops ht .recheck act).recheck⟩

/-- the body erases everything -/
def eraseAll (_ _ : Nat) : LoopAct := .erase

def fwdOps : List MapOp := (List.range 10).map (fun i => .insert (37 * i) (5 * i))

/-- the size after a loop -/
def fwdSize {S O : Type} (g : Cfg S O) (t : Tab S O) (m : AfterErase) : Option Nat :=
  match t.forwardAll g m eraseAll with
  | .ok r => some r.1.size
  | .error _ => none

/-- the sizes after the three loops -/
def fwdSizes {S O : Type} (g : Cfg S O) (kw vw : Nat) : List (Option Nat) :=
  match Tab.run g (Tab.new g kw vw) fwdOps with
  | .ok (t, _) => [fwdSize g t .step, fwdSize g t .stay, fwdSize g t .recheck]
  | .error _ => []

theorem fwdSizes_some {S : Type} {g : Cfg S Unit} {kw vw a b c : Nat} (h : fwdSizes g kw vw = [some a, some b, some c]) :
    ∃ t, After g kw vw fwdOps t ∧ (∃ r, t.forwardAll g .step eraseAll = .ok r ∧ r.1.size = a) ∧
      (∃ r, t.forwardAll g .stay eraseAll = .ok r ∧ r.1.size = b) ∧ (∃ r, t.forwardAll g .recheck eraseAll = .ok r ∧ r.1.size = c) := by
  unfold fwdSizes at h
  cases hr : Tab.run g (Tab.new g kw vw) fwdOps with
  | error e => rw [hr] at h; simp at h
  | ok r =>
    rw [hr] at h
    simp only [List.cons.injEq, and_true] at h
    have key : ∀ (m : AfterErase) (x : Nat), fwdSize g r.1 m = some x →
        ∃ r', r.1.forwardAll g m eraseAll = .ok r' ∧ r'.1.size = x := by
      intro m x hx
      unfold fwdSize at hx
      cases hm : r.1.forwardAll g m eraseAll with
      | error e => rw [hm] at hx; cases hx
      | ok r' => rw [hm] at hx; exact ⟨r', rfl, Option.some.inj hx⟩
    exact ⟨r.1, ⟨r.2, hr⟩, key _ _ h.1, key _ _ h.2.1, key _ _ h.2.2⟩

/-- **C105**: the two shorter loops are wrong in all three tables.  In tables with ten elements the loop that erases every element and does `++nav`
after every iteration leaves two or three elements, and the loop that does not do `++nav` after an erasure leaves eight; the loop that checks the
navigator leaves none. -/
theorem C105_shorter_loops_not :
    (∃ t, After (sepMap exCfg (.xorshift 16)) 10 20 fwdOps t ∧ (∃ r, t.forwardAll (sepMap exCfg (.xorshift 16)) .step eraseAll = .ok r ∧ r.1.size = 2) ∧
      (∃ r, t.forwardAll (sepMap exCfg (.xorshift 16)) .stay eraseAll = .ok r ∧ r.1.size = 8) ∧
      (∃ r, t.forwardAll (sepMap exCfg (.xorshift 16)) .recheck eraseAll = .ok r ∧ r.1.size = 0)) ∧
    (∃ t, After (cmpMap cmpEx (.xorshift 64)) 11 13 fwdOps t ∧ (∃ r, t.forwardAll (cmpMap cmpEx (.xorshift 64)) .step eraseAll = .ok r ∧ r.1.size = 2) ∧
      (∃ r, t.forwardAll (cmpMap cmpEx (.xorshift 64)) .stay eraseAll = .ok r ∧ r.1.size = 8) ∧
      (∃ r, t.forwardAll (cmpMap cmpEx (.xorshift 64)) .recheck eraseAll = .ok r ∧ r.1.size = 0)) ∧
    (∃ t, After (grpMap grpEx (.xorshift 64)) 11 13 fwdOps t ∧ (∃ r, t.forwardAll (grpMap grpEx (.xorshift 64)) .step eraseAll = .ok r ∧ r.1.size = 3) ∧
      (∃ r, t.forwardAll (grpMap grpEx (.xorshift 64)) .stay eraseAll = .ok r ∧ r.1.size = 8) ∧
      (∃ r, t.forwardAll (grpMap grpEx (.xorshift 64)) .recheck eraseAll = .ok r ∧ r.1.size = 0)) :=
  ⟨fwdSizes_some (by decide +kernel), fwdSizes_some (by decide +kernel), fwdSizes_some (by decide +kernel)⟩

/-- keep the even values, erase those divisible by three, add one to the others -/
def fwdAct (_ v : Nat) : LoopAct := if v % 2 = 0 then .keep else if v % 3 = 0 then .erase else .assign (v + 1)

example (mode : AfterErase) : ∃ t, SepAfter exCfg (.xorshift 16) 10 20 exOps t ∧ t.size = 60 ∧
    EraseForwardSpec (sepMap exCfg (.xorshift 16)) (fun v => v % 2 ^ 32) 10 (SepValid (.xorshift 16) 16 10) mode fwdAct t := by
  obtain ⟨t, ht, _, h2⟩ := exAfter
  exact ⟨t, ht, h2, C105_separate_forward exOK exOps_valid ht mode _⟩

example (mode : AfterErase) : ∃ t, After (cmpMap cmpEx (.xorshift 64)) 11 13 cmpExOps t ∧ t.size = 40 ∧
    EraseForwardSpec (cmpMap cmpEx (.xorshift 64)) (fun v => v % 2 ^ 13) 11 (CmpValid (.xorshift 64) 11) mode fwdAct t := by
  obtain ⟨t, ht, _, h2⟩ := cmpExAfter
  exact ⟨t, ht, h2, C105_compact_forward cmpExOK cmpExOps_valid ht mode _⟩

example (mode : AfterErase) : ∃ t, After (grpMap grpEx (.xorshift 64)) 11 13 grpExOps t ∧ t.size = 40 ∧
    EraseForwardSpec (grpMap grpEx (.xorshift 64)) (fun v => v % 2 ^ 13) 11 (GrpValid (.xorshift 64) 11) mode fwdAct t := by
  obtain ⟨t, ht, _, h2, _⟩ := grpExAfter
  exact ⟨t, ht, h2, C105_group_forward grpExOK grpExOps_valid ht mode _⟩

/-- the specification: in a bucket with the keys 1, 2, 3, erasing 1 skips 2 with `++nav` after every iteration; without it the loop ends after 3 -/
example : forwardPairs .step (fun _ => 0) id (fun k _ => if k ≤ 2 then .erase else .keep) [(1, 5), (2, 6), (3, 7)] = ([(1, 5), (3, 7)], [(2, 6), (3, 7)]) := by
  decide +kernel
example : forwardPairs .stay (fun k => k / 4) id (fun _ _ => .erase) [(1, 5), (2, 6), (5, 7)] = ([(1, 5), (2, 6)], [(5, 7)]) := by decide +kernel

end SC
