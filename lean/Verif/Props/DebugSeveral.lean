import Verif.Props.Several
import Verif.Props.Debug
import Verif.Props.DebugCompact
import Verif.Props.DebugGroup
/-!
# Programs with several tables in builds with assertions: C140

The statements of programs are those of C86.  In debug builds the additional members (`m_plainkeys`, `m_plainvalues`, `m_bucketsizes` of
`group_chaining_table`, `m_storagesizes` and `m_large_storage` of `compact_chaining_map`) are part of the store of the model; they are
exchanged by `swap` (sep:365, cmp:262-264 and 272, grp:755-757) and taken over by the moves (sep:342 and 359, cmp:234-237, 248, 251 and 253-256)
together with the others.  Neither `swap` nor a move contains an assertion of its own (sep:347 and 364,
cmp:242 and 261, grp:754 are comments).  The assertions of `clear()`, which the move assignments call: `C81_group_debug_clear` for
`group_chaining_table`; none in `compact_chaining_map`; in `separate_chaining_table` with `arbitrary_resize` size.hpp:59 and 60, not part of the
model of `clear()`, say that there are capacities for all buckets (they are allocated together with the buckets, sep:425).
-/
namespace SC

/-! ## Specification -/

/-- As `Tables.Valid`, but which arguments are allowed depends on the value width, too. -/
def Tables.ValidArgs (tr : Nat → Nat → Nat) (widths : Nat → Nat → Prop) (args : Nat → Nat → MapOp → Prop) (s : Tables) : List TCmd → Prop
  | [] => True
  | c :: prog => (match c with
      | .create _ kw vw => widths kw vw
      | .call i op => ∃ kw vw m, s i = some (kw, vw, m) ∧ args kw vw op
      | _ => True) ∧ Tables.ValidArgs tr widths args (s.cmd tr c).1 prog

/-! ## Proof -/

variable {S : Type} {g : Cfg S Unit} {tr : Nat → Nat → Nat} {widths : Nat → Nat → Prop} {args : Nat → Nat → MapOp → Prop} {viaSwap : Bool}

/-- parameters of a table that stores values below `2^vw` -/
structure FitPar (g : Cfg S Unit) (tr : Nat → Nat → Nat) (args : Nat → Nat → MapOp → Prop) (kw vw : Nat) (P : Par S Unit) : Prop where
  laws : Laws g P
  grow : P.grow < 65
  op : ∀ op, args kw vw op → OpOK P op ∧ ValidOp kw P.lo P.hi (fun v => v < 2 ^ vw) op
  norm : P.norm = fitNorm tr
  kw : P.kw = kw
  vw : P.vw = vw

/-- the table holds the map -/
def FitHold (g : Cfg S Unit) (tr : Nat → Nat → Nat) (args : Nat → Nat → MapOp → Prop) (kw vw : Nat) (t : Tab S Unit) (m : FMap) : Prop :=
  ∃ P, FitPar g tr args kw vw P ∧ Sem g P t m

theorem FitHold.step {kw vw : Nat} {t : Tab S Unit} {m : FMap} (h : FitHold g tr args kw vw t m) {op : MapOp} (ha : args kw vw op) :
    t.kw = kw ∧ ∃ t', t.step g op = .ok (t', (m.step (tr vw) op).2) ∧ FitHold g tr args kw vw t' (m.step (tr vw) op).1 := by
  obtain ⟨P, hP, l, hi, hl⟩ := h
  obtain ⟨h1, h2⟩ := hP.op op ha
  obtain ⟨t', l', h3, h4, h5⟩ := Tab.step_ok hP.laws hP.grow hi hl op h1
  have e := FMap.run_congr (f := fitNorm tr vw) (g := tr vw) (fit_eq (Nat.two_pow_pos _)) (fun v hv => fit_eq hv) [op] m
    (fun o ho => by rw [List.mem_singleton.mp ho]; exact h2)
  rw [hP.norm, hP.vw] at h3 h5
  simp only [FMap.run, FMap.after] at e
  rw [(List.cons.inj e.1).1] at h3
  rw [e.2] at h5
  exact ⟨by rw [hi.kw_eq, hP.kw], t', h3, P, hP, l', h4, h5⟩

theorem TObjs.run_fit (hw : ∀ kw vw, widths kw vw → ∃ P, FitPar g tr args kw vw P) : ∀ (prog : List TCmd) {o : TObjs S} {s : Tables},
    AllHold widths (FitHold g tr args) o s → s.ValidArgs tr widths args prog → ∃ o', o.run g viaSwap prog = .ok (o', s.run tr prog) := by
  have C : Classy g tr widths (fun _ _ => False) (FitHold g tr args) :=
    { new := by
        intro kw vw h
        obtain ⟨P, hP⟩ := hw kw vw h
        have := Inv.new hP.laws
        rw [hP.kw, hP.vw] at this
        exact ⟨P, hP, [], this, Abs.empty⟩
      step := by intro _ _ _ _ _ _ _ h; exact h.elim
      kw := by
        rintro kw vw t m - ⟨P, hP, l, hi, _⟩
        rw [hi.kw_eq, hP.kw] }
  intro prog
  induction prog with
  | nil => intro o s _ _; exact ⟨o, rfl⟩
  | cons c prog ih =>
    intro o s h hv
    have : ∃ o', o.cmd g viaSwap c = .ok (o', (s.cmd tr c).2) ∧ AllHold widths (FitHold g tr args) o' (s.cmd tr c).1 := by
      cases c with
      | call i op =>
        obtain ⟨kw, vw, m, e, ha⟩ := hv.1
        obtain ⟨hw, x, h1, h2, h3⟩ := h i kw vw m e
        obtain ⟨h6, t', h4, h5⟩ := h3.step ha
        refine ⟨o.set i (some ⟨t', x.hash⟩), ?_, ?_⟩
        · simp only [TObjs.cmd, h1, TObj.call, h2, h6, if_true, h4, ok_bind, pure_eq_ok, Tables.cmd, e]
        · simp only [Tables.cmd, e]
          refine h.set ?_
          intro kw' vw' m' e'
          cases e'
          exact ⟨hw, _, rfl, h2, h5⟩
      | create i kw vw => exact TObjs.cmd_ok C h (.create i kw vw) hv.1
      | swap i j => exact TObjs.cmd_ok C h (.swap i j) trivial
      | moveAssign i j => exact TObjs.cmd_ok C h (.moveAssign i j) trivial
      | moveConstruct i j => exact TObjs.cmd_ok C h (.moveConstruct i j) trivial
    obtain ⟨o1, h1, h2⟩ := this
    obtain ⟨o2, h3⟩ := ih h2 hv.2
    exact ⟨o2, by simp only [TObjs.run, h1, ok_bind, h3, pure_eq_ok, Tables.run]⟩

/-! ## C140 -/

/-- **C140** for debug builds of `separate_chaining_table`: no assertion fails in a program that constructs tables of any widths, calls their
functions, swaps them and moves them, and the answers are those of finite maps that are swapped and moved. -/
theorem C140_debug_several_tables {KB VB : Type} (k : DbgCfg KB) (vops : BucketOps VB) (vnull : VB → Bool) (strat : Strategy)
    (maxBucket : Nat) (hk : HashKind) (kbits vbits : Nat) (tr : Nat → Nat → Nat) (W : Nat) :
    (∀ kw vw, SepDbgTabOK k vops vnull maxBucket hk kbits vbits tr W kw vw → sepDbgNew hk kbits vbits kw vw = .ok ()) ∧
    ∀ prog, noTables.ValidArgs tr (SepDbgTabOK k vops vnull maxBucket hk kbits vbits tr W) (DbgValid strat hk W) prog →
      ∃ o, noObjs.run (dbgMap k vops vnull strat maxBucket hk kbits) false prog = .ok (o, noTables.run tr prog) := by
  constructor
  · intro kw vw h
    obtain ⟨_, _, _, _, h⟩ := h.par strat true
    exact h
  · intro prog hv
    refine TObjs.run_fit (args := DbgValid strat hk W) (widths := SepDbgTabOK k vops vnull maxBucket hk kbits vbits tr W) ?_ prog
      (fun i kw vw m e => by cases e) hv
    intro kw vw h
    obtain ⟨KRep, VRep, L, hg, _⟩ := h.par strat true
    refine ⟨_, L, hg, ?_, rfl, rfl, rfl⟩
    rintro op ⟨v1, v2⟩
    refine ⟨ValidOp.opOK (vals := fun v => v < 2 ^ vw) L.hi_lt L.lo_pos (fun v hv => fit_iff.mpr hv)
      (fit_iff.mpr (Nat.two_pow_pos _)) v1 ?_, v1⟩
    by_cases hs : strat = .arbitrary
    · exact .inl (v2 hs)
    · exact .inr (decide_eq_true hs)

/-- **C140** for debug builds of `compact_chaining_map` -/
theorem C140_compact_debug_several_tables (v : VarCfg) (hk : HashKind) (kbits : Nat) :
    (∀ kw vw, CmpDbgTabOK v hk kbits kw vw → cmpDbgNew hk kbits kw vw = .ok ()) ∧
    ∀ prog, noTables.ValidArgs (fun vw v => v % 2 ^ vw) (CmpDbgTabOK v hk kbits) (CmpDbgValid hk) prog →
      ∃ o, noObjs.run (cmpDbg v hk kbits) false prog = .ok (o, noTables.run (fun vw v => v % 2 ^ vw) prog) := by
  refine ⟨fun kw vw h => h.par.2.2, fun prog hv => ?_⟩
  refine TObjs.run_fit (args := CmpDbgValid hk) (widths := CmpDbgTabOK v hk kbits) ?_ prog (fun i kw vw m e => by cases e) hv
  intro kw vw h
  obtain ⟨L, hg, _⟩ := h.par
  refine ⟨_, L, hg, fun op v1 => ⟨?_, v1⟩, rfl, rfl, rfl⟩
  exact ValidOp.opOK (vals := fun v => v < 2 ^ vw) L.hi_lt L.lo_pos (fun v hv => (fit_iff (tr := fun w v => v % 2 ^ w)).mpr hv)
      ((fit_iff (tr := fun w v => v % 2 ^ w)).mpr (Nat.two_pow_pos _)) v1 (.inr rfl)

/-- **C140** for debug builds of `group_chaining_table` (it has no move constructor, so programs that use it do not compile) -/
theorem C140_group_debug_several_tables (c : GrpCfg) (hk : HashKind) :
    (∀ kw vw, GrpOK hk kw vw → grpDbgNew hk kw vw = .ok ()) ∧
    ∀ prog, noTables.ValidArgs (fun vw v => v % 2 ^ vw) (GrpOK hk) (GrpDbgValid hk) prog →
      ∃ o, noObjs.run (grpDbg c hk) true prog = .ok (o, noTables.run (fun vw v => v % 2 ^ vw) prog) := by
  refine ⟨fun kw vw h => (h.dbgPar (g := c)).2.2, fun prog hv => ?_⟩
  refine TObjs.run_fit (args := GrpDbgValid hk) (widths := GrpOK hk) ?_ prog (fun i kw vw m e => by cases e) hv
  intro kw vw h
  obtain ⟨L, hg, _⟩ := h.dbgPar (g := c)
  refine ⟨_, L, hg, fun op v1 => ⟨?_, v1⟩, rfl, rfl, rfl⟩
  exact ValidOp.opOK (vals := fun v => v < 2 ^ vw) L.hi_lt L.lo_pos (fun v hv => (fit_iff (tr := fun w v => v % 2 ^ w)).mpr hv)
      ((fit_iff (tr := fun w v => v % 2 ^ w)).mpr (Nat.two_pow_pos _)) v1 (.inr rfl)

/-! ## Examples -/

theorem severalEx_validArgs {widths : Nat → Nat → Prop} {args : Nat → Nat → MapOp → Prop} (tr : Nat → Nat → Nat)
    (h1 : widths 10 20) (h2 : widths 12 7) (h3 : widths 9 3) (h4 : widths 5 5)
    (a1 : args 10 20 (.insert 11 5)) (a2 : args 12 7 (.insert 2900 6)) (a3 : args 12 7 (.find 2900)) (a4 : args 10 20 (.find 11))
    (a5 : args 12 7 .size) (a6 : args 10 20 (.erase 11)) (a7 : args 5 5 .size) : noTables.ValidArgs tr widths args severalEx :=
  ⟨h1, h2, ⟨_, _, _, rfl, a1⟩, ⟨_, _, _, rfl, a2⟩, trivial, ⟨_, _, _, rfl, a3⟩, trivial, ⟨_, _, _, rfl, a4⟩, trivial, ⟨_, _, _, rfl, a5⟩, h3,
    trivial, ⟨_, _, _, rfl, a6⟩, trivial, h4, ⟨_, _, _, rfl, a7⟩, trivial⟩

example : ∃ o, noObjs.run dbgEx false severalEx = .ok (o, noTables.run (fun _ v => v % 2 ^ 32) severalEx) := by
  have h : ∀ kw vw, 3 ≤ kw → kw ≤ 16 → 1 ≤ vw → vw ≤ 32 → SepDbgTabOK (dbgPlain 16 12345) (dbgOps (dbgPlain 32 678)) (fun b => b.data.isNone) 3
      (.xorshift 16) 64 32 (fun _ v => v % 2 ^ 32) 16 kw vw := fun kw vw h1 h2 h3 h4 =>
    ⟨.plain (by simp), .plain (by simp), by decide, by simp only [HashKind.Supports]; omega, h3, h4, by simp, by omega⟩
  exact (C140_debug_several_tables (dbgPlain 16 12345) (dbgOps (dbgPlain 32 678)) (fun b => b.data.isNone) .arbitrary 3 (.xorshift 16) 64 32
    (fun _ v => v % 2 ^ 32) 16).2 _ (severalEx_validArgs _ (h _ _ (by omega) (by omega) (by omega) (by omega))
    (h _ _ (by omega) (by omega) (by omega) (by omega)) (h _ _ (by omega) (by omega) (by omega) (by omega))
    (h _ _ (by omega) (by omega) (by omega) (by omega)) (by decide) (by decide) (by decide) (by decide) (by decide) (by decide) (by decide))

example : ∃ o, noObjs.run cmpDbgEx false severalEx = .ok (o, [.pair 11 5, .pair 2900 6, .pair 2900 6, .pair 11 5, .num 1, .num 1, .num 0]) := by
  have h : ∀ kw vw, 3 ≤ kw → kw ≤ 64 → 1 ≤ vw → vw ≤ 64 → CmpDbgTabOK cmpEx (.xorshift 64) 64 kw vw := fun kw vw h1 h2 h3 h4 =>
    ⟨⟨by simp [VarCfg.good, cmpEx], by simp only [HashKind.Supports]; omega, h3, h4⟩, by simp, h2⟩
  rw [← severalEx_run]
  exact (C140_compact_debug_several_tables cmpEx (.xorshift 64) 64).2 _ (severalEx_validArgs _ (h _ _ (by omega) (by omega) (by omega) (by omega))
    (h _ _ (by omega) (by omega) (by omega) (by omega)) (h _ _ (by omega) (by omega) (by omega) (by omega))
    (h _ _ (by omega) (by omega) (by omega) (by omega)) (by decide) (by decide) (by decide) (by decide) (by decide) (by decide) (by decide))

example : ∃ o, noObjs.run grpDbgEx true [.create 0 10 20, .create 1 12 7, .call 0 (.insert 11 5), .swap 0 1,
    .moveAssign 0 1, .call 0 (.find 11)] = .ok (o, [.pair 11 5, .pair 11 5]) := by
  have h : ∀ kw vw, 3 ≤ kw → kw ≤ 64 → 1 ≤ vw → vw ≤ 64 → GrpOK (.xorshift 64) kw vw := fun kw vw h1 h2 h3 h4 =>
    ⟨by simp only [HashKind.Supports]; omega, h3, h4⟩
  exact (C140_group_debug_several_tables grpEx (.xorshift 64)).2 _ ⟨h _ _ (by omega) (by omega) (by omega) (by omega),
    h _ _ (by omega) (by omega) (by omega) (by omega), ⟨_, _, _, rfl, by decide⟩, trivial, trivial, ⟨_, _, _, rfl, by decide⟩, trivial⟩

end SC
