import Verif.Table.Several
import Verif.Props.Table
import Verif.Props.Compact
import Verif.Props.Group
/-!
# Programs with several tables: C86
-/
namespace SC

theorem classy_sep {KB VB : Type} (p : SepCfg KB VB) (hk : HashKind) (tr : Nat → Nat → Nat) (W : Nat) :
    Classy (sepMap p hk) tr (SepOK p hk tr W) (SepValid hk W)
      (fun kw vw t m => ∃ P, SepParOK p hk tr W kw vw true P ∧ Sem (sepMap p hk) P t m) where
  new kw vw h := by
    obtain ⟨P, hP⟩ := h.par true
    have := Inv.new hP.laws
    have e1 : P.kw = kw := by obtain ⟨_, _, rfl⟩ := hP.par; rfl
    have e2 : P.vw = vw := by obtain ⟨_, _, rfl⟩ := hP.par; rfl
    rw [e1, e2] at this
    exact ⟨P, hP, [], this, Abs.empty⟩
  step kw vw t m op _ := by
    rintro ⟨P, hP, l, hi, ha⟩ hop
    obtain ⟨t', l', h1, h2, h3⟩ := Tab.step_ok hP.laws hP.grow65 hi ha op (hP.opOK hop)
    have e3 : P.norm P.vw = tr vw := by obtain ⟨_, _, rfl⟩ := hP.par; rfl
    rw [e3] at h1 h3
    exact ⟨t', h1, P, hP, l', h2, h3⟩
  kw kw vw t m _ := by
    rintro ⟨P, hP, l, hi, ha⟩
    rw [hi.kw_eq]
    obtain ⟨_, _, rfl⟩ := hP.par; rfl

/-- tables with parameters `P kw vw` -/
theorem classy_covered {S : Type} {g : Cfg S Unit} {tr : Nat → Nat → Nat} {lo hi : Nat → Nat} {widths : Nat → Nat → Prop}
    {P : Nat → Nat → Par S Unit} (h : ∀ kw vw, widths kw vw → Covered g (tr vw) (lo kw) (hi kw) kw vw (P kw vw)) :
    Classy g tr widths (fun kw op => ValidOp kw (lo kw) (hi kw) (fun _ => True) op) (fun kw vw t m => Sem g (P kw vw) t m) where
  new kw vw hw := by
    have := Inv.new (h kw vw hw).laws
    rw [(h kw vw hw).kw, (h kw vw hw).vw] at this
    exact ⟨[], this, Abs.empty⟩
  step kw vw t m op hw := by
    rintro ⟨l, hi, ha⟩ hop
    obtain ⟨t', l', h1, h2, h3⟩ := Tab.step_ok (h kw vw hw).laws (h kw vw hw).grow65 hi ha op ((h kw vw hw).opOK hop)
    rw [(h kw vw hw).norm] at h1 h3
    exact ⟨t', h1, l', h2, h3⟩
  kw kw vw t m hw := by
    rintro ⟨l, hi, ha⟩
    rw [hi.kw_eq, (h kw vw hw).kw]

/-- no objects -/
def noObjs {S : Type} : TObjs S := fun _ => none

/-- no tables -/
def noTables : Tables := fun _ => none

/-- **C86** for `separate_chaining_table`: every program that constructs tables of any widths, calls their functions, swaps them and moves
them gets the answers of finite maps that are swapped and moved. -/
theorem C86_several_tables {KB VB : Type} (p : SepCfg KB VB) (hk : HashKind) (tr : Nat → Nat → Nat) (W : Nat) (prog : List TCmd)
    (hv : noTables.Valid tr (SepOK p hk tr W) (SepValid hk W) prog) :
    ∃ o, noObjs.run (sepMap p hk) false prog = .ok (o, noTables.run tr prog) := by
  obtain ⟨o, h, _⟩ := TObjs.run_ok (viaSwap := false) (classy_sep p hk tr W) prog (o := noObjs) (s := noTables)
    (fun i kw vw m e => by cases e) hv
  exact ⟨o, h⟩

/-- **C86** for `compact_chaining_map` -/
theorem C86_several_tables_compact (c : VarCfg) (hk : HashKind) (prog : List TCmd)
    (hv : noTables.Valid (fun vw v => v % 2 ^ vw) (CmpOK c hk) (CmpValid hk) prog) :
    ∃ o, noObjs.run (cmpMap c hk) false prog = .ok (o, noTables.run (fun vw v => v % 2 ^ vw) prog) := by
  obtain ⟨o, h, _⟩ := TObjs.run_ok (viaSwap := false) (classy_covered (tr := fun vw v => v % 2 ^ vw) (fun kw vw h => CmpOK.covered h)) prog
    (o := noObjs) (s := noTables) (fun i kw vw m e => by cases e) hv
  exact ⟨o, h⟩

/-- **C86** for `group_chaining_table` (it has no move constructor, so programs that use it do not compile) -/
theorem C86_several_tables_group (c : GrpCfg) (hk : HashKind) (prog : List TCmd)
    (hv : noTables.Valid (fun vw v => v % 2 ^ vw) (GrpOK hk) (GrpValid hk) prog) :
    ∃ o, noObjs.run (grpMap c hk) true prog = .ok (o, noTables.run (fun vw v => v % 2 ^ vw) prog) := by
  obtain ⟨o, h, _⟩ := TObjs.run_ok (viaSwap := true)
    (classy_covered (tr := fun vw v => v % 2 ^ vw) (fun kw vw (h : GrpOK hk kw vw) => h.covered (c := c) (sp := true) (fun _ => rfl))) prog
    (o := noObjs) (s := noTables) (fun i kw vw m e => by cases e) hv
  exact ⟨o, h⟩

/-- tables with different widths, filled, swapped, moved and used again -/
def severalEx : List TCmd :=
  [.create 0 10 20, .create 1 12 7, .call 0 (.insert 11 5), .call 1 (.insert 2900 6), .swap 0 1, .call 0 (.find 2900), .moveConstruct 2 1,
   .call 2 (.find 11), .moveAssign 1 0, .call 1 .size, .create 0 9 3, .swap 0 2, .call 0 (.erase 11), .moveAssign 0 0, .create 0 5 5, .call 0 .size]

theorem severalEx_valid {widths : Nat → Nat → Prop} {args : Nat → MapOp → Prop} (tr : Nat → Nat → Nat)
    (h1 : widths 10 20) (h2 : widths 12 7) (h3 : widths 9 3) (h4 : widths 5 5)
    (a1 : args 10 (.insert 11 5)) (a2 : args 12 (.insert 2900 6)) (a3 : args 12 (.find 2900)) (a4 : args 10 (.find 11)) (a5 : args 12 .size)
    (a6 : args 10 (.erase 11)) (a7 : args 5 .size) : noTables.Valid tr widths args severalEx :=
  ⟨h1, h2, ⟨_, _, _, rfl, a1⟩, ⟨_, _, _, rfl, a2⟩, trivial, ⟨_, _, _, rfl, a3⟩, trivial, ⟨_, _, _, rfl, a4⟩, trivial, ⟨_, _, _, rfl, a5⟩, h3,
    trivial, ⟨_, _, _, rfl, a6⟩, trivial, h4, ⟨_, _, _, rfl, a7⟩, trivial⟩

/-- the answers -/
theorem severalEx_run : noTables.run (fun vw v => v % 2 ^ vw) severalEx =
    [.pair 11 5, .pair 2900 6, .pair 2900 6, .pair 11 5, .num 1, .num 1, .num 0] := by decide +kernel

theorem exCfg_ok {kw : Nat} (vw : Nat) (h3 : 3 ≤ kw) (h : kw ≤ 16) (hv : 1 ≤ vw) (hv' : vw ≤ 64) :
    SepOK exCfg (.xorshift 16) (fun _ v => v % 2 ^ 32) 16 kw vw where
  keys := .plain (by simp)
  vals := .plain (by simp)
  max := by decide
  hash := by simp only [HashKind.Supports]; omega
  vw_pos := hv
  vw_le := hv'

example : ∃ o, noObjs.run (sepMap exCfg (.xorshift 16)) false severalEx = .ok (o, noTables.run (fun _ v => v % 2 ^ 32) severalEx) :=
  C86_several_tables exCfg (.xorshift 16) _ 16 _ (severalEx_valid _ (exCfg_ok _ (by omega) (by omega) (by omega) (by omega))
    (exCfg_ok _ (by omega) (by omega) (by omega) (by omega)) (exCfg_ok _ (by omega) (by omega) (by omega) (by omega))
    (exCfg_ok _ (by omega) (by omega) (by omega) (by omega)) (by decide) (by decide) (by decide) (by decide) (by decide) (by decide) (by decide))

example : ∃ o, noObjs.run (cmpMap cmpEx (.xorshift 64)) false severalEx = .ok (o, [.pair 11 5, .pair 2900 6, .pair 2900 6, .pair 11 5, .num 1, .num 1, .num 0]) := by
  have h : ∀ kw vw, 3 ≤ kw → kw ≤ 64 → 1 ≤ vw → vw ≤ 64 → CmpOK cmpEx (.xorshift 64) kw vw := fun kw vw h1 h2 h3 h4 =>
    ⟨by simp [VarCfg.good, cmpEx], by simp only [HashKind.Supports]; omega, h3, h4⟩
  rw [← severalEx_run]
  exact C86_several_tables_compact _ _ _ (severalEx_valid _ (h _ _ (by omega) (by omega) (by omega) (by omega)) (h _ _ (by omega) (by omega) (by omega) (by omega))
    (h _ _ (by omega) (by omega) (by omega) (by omega)) (h _ _ (by omega) (by omega) (by omega) (by omega))
    (by decide) (by decide) (by decide) (by decide) (by decide) (by decide) (by decide))

example : ∃ o, noObjs.run (grpMap grpEx (.xorshift 64)) true [.create 0 10 20, .create 1 12 7, .call 0 (.insert 11 5), .swap 0 1,
    .moveAssign 0 1, .call 0 (.find 11)] = .ok (o, [.pair 11 5, .pair 11 5]) := by
  have h : ∀ kw vw, 3 ≤ kw → kw ≤ 64 → 1 ≤ vw → vw ≤ 64 → GrpOK (.xorshift 64) kw vw := fun kw vw h1 h2 h3 h4 =>
    ⟨by simp only [HashKind.Supports]; omega, h3, h4⟩
  exact C86_several_tables_group _ _ _ ⟨h _ _ (by omega) (by omega) (by omega) (by omega), h _ _ (by omega) (by omega) (by omega) (by omega),
    ⟨_, _, _, rfl, by decide⟩, trivial, trivial, ⟨_, _, _, rfl, by decide⟩, trivial⟩

/-- Tables that were moved from must indeed not be used: after `x1 = std::move(x0)` with a single element in `x0`, `x0.size()` still answers 1,
and looking for that element dereferences the null pointer. -/
theorem C86_moved_from : (∃ o, noObjs.run (sepMap exCfg (.xorshift 16)) false [.create 0 10 20, .create 1 10 20, .call 0 (.insert 11 5),
      .moveAssign 1 0, .call 0 .size] = .ok (o, [.pair 11 5, .num 1])) ∧
    ∃ e, noObjs.run (sepMap exCfg (.xorshift 16)) false [.create 0 10 20, .create 1 10 20, .call 0 (.insert 11 5),
      .moveAssign 1 0, .call 0 (.find 11)] = .error e := by
  have h1 : (match noObjs.run (sepMap exCfg (.xorshift 16)) false [.create 0 10 20, .create 1 10 20, .call 0 (.insert 11 5),
      .moveAssign 1 0, .call 0 .size] with | .ok (_, as) => decide (as = [.pair 11 5, .num 1]) | .error _ => false) = true := by decide +kernel
  have h2 : (match noObjs.run (sepMap exCfg (.xorshift 16)) false [.create 0 10 20, .create 1 10 20, .call 0 (.insert 11 5),
      .moveAssign 1 0, .call 0 (.find 11)] with | .ok _ => false | .error _ => true) = true := by decide +kernel
  constructor
  · revert h1
    split
    · intro h1; exact ⟨_, by rename_i h; rw [h, of_decide_eq_true h1]⟩
    · intro h; cases h
  · revert h2
    split
    · intro h; cases h
    · intro _; exact ⟨_, by assumption⟩

end SC
