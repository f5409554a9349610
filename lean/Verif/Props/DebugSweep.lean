import Verif.Table.LoopFit
import Verif.Props.Sweep
import Verif.Props.Forward
import Verif.Props.DebugCompact
import Verif.Props.DebugGroup
import Verif.Props.Debug
/-!
# Loops that change the table, in builds with assertions: C134

The specifications are those of the release builds (C73, C74, C105).
-/
namespace SC

variable {KB VB : Type} {k : DbgCfg KB} {vops : BucketOps VB} {vnull : VB → Bool} {strat : Strategy} {maxBucket W kbits vbits kw vw : Nat}
  {hk : HashKind} {tr : Nat → Nat → Nat} {v : VarCfg} {g : GrpCfg}

/-- **C134** for `separate_chaining_map`: the backward loops, the forward loop that assigns, and the three forward loops that may erase -/
theorem C134_separate_debug_loops (h : SepDbgTabOK k vops vnull maxBucket hk kbits vbits tr W kw vw) {ops : List MapOp}
    (hops : ∀ op ∈ ops, DbgValid strat hk W kw vw op) {t : Tab (SepDbg (DbgB KB) VB) Unit} {as : List Ans}
    (ht : Tab.run (dbgMap k vops vnull strat maxBucket hk kbits) (Tab.new (dbgMap k vops vnull strat maxBucket hk kbits) kw vw) ops =
      .ok (t, as)) :
    (∀ act, (∀ l, t.pairs (dbgMap k vops vnull strat maxBucket hk kbits) = .ok l → BodyFits vw act l) →
      (t.size ≠ 0 → SweepSpec (dbgMap k vops vnull strat maxBucket hk kbits) (tr vw) kw (DbgValid strat hk W kw vw) act t) ∧
      SweepFromSpec (dbgMap k vops vnull strat maxBucket hk kbits) (tr vw) kw (DbgValid strat hk W kw vw) act t ∧
      ∀ mode, EraseForwardSpec (dbgMap k vops vnull strat maxBucket hk kbits) (tr vw) kw (DbgValid strat hk W kw vw) mode act t) ∧
    ∀ f : Nat → Nat → Nat, (∀ l, t.pairs (dbgMap k vops vnull strat maxBucket hk kbits) = .ok l → ∀ e ∈ l, f e.1 e.2 < 2 ^ vw) →
      UpdateSpec (dbgMap k vops vnull strat maxBucket hk kbits) (tr vw) kw (DbgValid strat hk W kw vw) f t := by
  obtain ⟨KRep, VRep, L, hg, _⟩ := h.par strat true
  have hv : ∀ op, DbgValid strat hk W kw vw op → OpOK _ op := fun op hop => by
    obtain ⟨v1, v2⟩ := hop
    refine ValidOp.opOK (vals := fun v => v < 2 ^ vw) L.hi_lt L.lo_pos (fun v hv => fit_iff.mpr hv)
      (fit_iff.mpr (Nat.two_pow_pos _)) v1 ?_
    by_cases hs : strat = .arbitrary
    · exact .inl (v2 hs)
    · exact .inr (decide_eq_true hs)
  obtain ⟨t', l, h1, h2, h3⟩ := Tab.run_new L hg ops (fun op hop => hv op (hops op hop))
  have : t' = t := congrArg Prod.fst (Except.ok.inj (h1.symm.trans ht))
  subst t'
  have hw : ∀ op, DbgValid strat hk W kw vw op → ValidOp kw (hk.lo kw W) (hk.width kw - 1) (fun v => v < 2 ^ vw) op := fun op hop => hop.1
  exact ⟨fun act hf => ⟨fun hne => fit_sweep L rfl rfl (fun _ _ _ _ h => h.1) hg hv hw ⟨l, h2, h3⟩ hne hf,
    fit_sweepFrom L rfl rfl (fun _ _ _ _ h => h.1) hg hv hw ⟨l, h2, h3⟩ hf,
    fun mode => fit_eraseForward L rfl rfl (fun _ _ _ _ h => h.1) hg hv hw ⟨l, h2, h3⟩ mode hf⟩,
    fun f hf => fit_update L rfl rfl (fun _ _ _ _ h => h.1) hg hv hw ⟨l, h2, h3⟩ hf⟩

/-- **C134** for `compact_chaining_map` -/
theorem C134_compact_debug_loops (h : CmpDbgTabOK v hk kbits kw vw) {ops : List MapOp} (hops : ∀ op ∈ ops, CmpDbgValid hk kw vw op)
    {t : Tab CmpDbg Unit} {as : List Ans}
    (ht : Tab.run (cmpDbg v hk kbits) (Tab.new (cmpDbg v hk kbits) kw vw) ops = .ok (t, as)) :
    (∀ act, (∀ l, t.pairs (cmpDbg v hk kbits) = .ok l → BodyFits vw act l) →
      (t.size ≠ 0 → SweepSpec (cmpDbg v hk kbits) (fun v => v % 2 ^ vw) kw (CmpDbgValid hk kw vw) act t) ∧
      SweepFromSpec (cmpDbg v hk kbits) (fun v => v % 2 ^ vw) kw (CmpDbgValid hk kw vw) act t ∧
      ∀ mode, EraseForwardSpec (cmpDbg v hk kbits) (fun v => v % 2 ^ vw) kw (CmpDbgValid hk kw vw) mode act t) ∧
    ∀ f : Nat → Nat → Nat, (∀ l, t.pairs (cmpDbg v hk kbits) = .ok l → ∀ e ∈ l, f e.1 e.2 < 2 ^ vw) →
      UpdateSpec (cmpDbg v hk kbits) (fun v => v % 2 ^ vw) kw (CmpDbgValid hk kw vw) f t := by
  obtain ⟨L, hg, _⟩ := h.par
  obtain ⟨t', h1, h2⟩ := cmpDbg_sem h hops
  have : t' = t := congrArg Prod.fst (Except.ok.inj (h1.symm.trans ht))
  subst t'
  have hv : ∀ op, CmpDbgValid hk kw vw op → OpOK (cmpDbgPar (cmpDbgCfg v hk kbits) hk kw vw) op := fun op hop =>
    ValidOp.opOK (vals := fun v => v < 2 ^ vw) L.hi_lt L.lo_pos (fun _ hv => fit_iff (tr := fun w v => v % 2 ^ w).mpr hv)
      (fit_iff (tr := fun w v => v % 2 ^ w).mpr (Nat.two_pow_pos _)) hop (.inr rfl)
  have hw : ∀ op, CmpDbgValid hk kw vw op → ValidOp kw (hk.lo kw 64) (hk.width kw - 1) (fun v => v < 2 ^ vw) op := fun op hop => hop
  exact ⟨fun act hf => ⟨fun hne => fit_sweep (tr := fun w v => v % 2 ^ w) L rfl rfl (fun _ _ _ _ h => h.1) hg hv hw h2 hne hf,
    fit_sweepFrom (tr := fun w v => v % 2 ^ w) L rfl rfl (fun _ _ _ _ h => h.1) hg hv hw h2 hf,
    fun mode => fit_eraseForward (tr := fun w v => v % 2 ^ w) L rfl rfl (fun _ _ _ _ h => h.1) hg hv hw h2 mode hf⟩,
    fun f hf => fit_update (tr := fun w v => v % 2 ^ w) L rfl rfl (fun _ _ _ _ h => h.1) hg hv hw h2 hf⟩

/-- **C134** for `group_chaining_table` -/
theorem C134_group_debug_loops (h : GrpOK hk kw vw) {ops : List MapOp} (hops : ∀ op ∈ ops, GrpDbgValid hk kw vw op)
    {t : Tab GrpDbg Unit} {as : List Ans} (ht : Tab.run (grpDbg g hk) (Tab.new (grpDbg g hk) kw vw) ops = .ok (t, as)) :
    (∀ act, (∀ l, t.pairs (grpDbg g hk) = .ok l → BodyFits vw act l) →
      SweepFromSpec (grpDbg g hk) (fun v => v % 2 ^ vw) kw (GrpDbgValid hk kw vw) act t ∧
      ∀ mode, EraseForwardSpec (grpDbg g hk) (fun v => v % 2 ^ vw) kw (GrpDbgValid hk kw vw) mode act t) ∧
    ∀ f : Nat → Nat → Nat, (∀ l, t.pairs (grpDbg g hk) = .ok l → ∀ e ∈ l, f e.1 e.2 < 2 ^ vw) →
      UpdateSpec (grpDbg g hk) (fun v => v % 2 ^ vw) kw (GrpDbgValid hk kw vw) f t := by
  obtain ⟨L, hg, _⟩ := h.dbgPar (g := g)
  obtain ⟨t', h1, h2⟩ := grpDbg_sem (g := g) h hops
  have : t' = t := congrArg Prod.fst (Except.ok.inj (h1.symm.trans ht))
  subst t'
  have hv : ∀ op, GrpDbgValid hk kw vw op → OpOK (grpDbgPar true (grpDbgCfg g hk) hk kw vw) op := fun op hop =>
    ValidOp.opOK (vals := fun v => v < 2 ^ vw) L.hi_lt L.lo_pos (fun _ hv => fit_iff (tr := fun w v => v % 2 ^ w).mpr hv)
      (fit_iff (tr := fun w v => v % 2 ^ w).mpr (Nat.two_pow_pos _)) hop (.inr rfl)
  have hw : ∀ op, GrpDbgValid hk kw vw op → ValidOp kw (hk.lo kw 64) (hk.width kw - 1) (fun v => v < 2 ^ vw) op := fun op hop => hop
  exact ⟨fun act hf => ⟨fit_sweepFrom (tr := fun w v => v % 2 ^ w) L rfl rfl (fun _ _ _ _ h => h.1) hg hv hw h2 hf,
    fun mode => fit_eraseForward (tr := fun w v => v % 2 ^ w) L rfl rfl (fun _ _ _ _ h => h.1) hg hv hw h2 mode hf⟩,
    fun f hf => fit_update (tr := fun w v => v % 2 ^ w) L rfl rfl (fun _ _ _ _ h => h.1) hg hv hw h2 hf⟩

/-- keep the even values, erase those divisible by three, halve the others -/
def halveAct (_ v : Nat) : LoopAct := if v % 2 = 0 then .keep else if v % 3 = 0 then .erase else .assign (v / 2 % 1000)

theorem halveAct_fits {vw : Nat} (h : 10 ≤ vw) (l : List (Nat × Nat)) : BodyFits vw halveAct l := by
  intro e _ x hx
  have : (2 : Nat) ^ 10 ≤ 2 ^ vw := Nat.pow_le_pow_right (by omega) h
  unfold halveAct at hx
  split at hx
  · cases hx
  · split at hx
    · cases hx
    · cases hx; omega

example : ∃ t as, Tab.run dbgEx (Tab.new dbgEx 10 20) exOps = .ok (t, as) ∧ t.size = 60 ∧
    SweepSpec dbgEx (fun v => v % 2 ^ 32) 10 (DbgValid .arbitrary (.xorshift 16) 16 10 20) halveAct t ∧
    EraseForwardSpec dbgEx (fun v => v % 2 ^ 32) 10 (DbgValid .arbitrary (.xorshift 16) 16 10 20) .recheck halveAct t ∧
    UpdateSpec dbgEx (fun v => v % 2 ^ 32) 10 (DbgValid .arbitrary (.xorshift 16) 16 10 20) (fun k v => (k + v) % 7) t := by
  obtain ⟨t, as, ht, _, h2⟩ := dbgExAfter
  obtain ⟨a, b⟩ := C134_separate_debug_loops dbgExOK dbgExOps_valid ht
  obtain ⟨a1, _, a3⟩ := a halveAct (fun l _ => halveAct_fits (by decide) l)
  exact ⟨t, as, ht, h2, a1 (by omega), a3 _, b _ (fun l _ e _ => Nat.lt_trans (Nat.mod_lt _ (by decide)) (by decide))⟩

example : ∃ t as, Tab.run cmpDbgEx (Tab.new cmpDbgEx 11 13) cmpExOps = .ok (t, as) ∧ t.size = 40 ∧
    SweepSpec cmpDbgEx (fun v => v % 2 ^ 13) 11 (CmpDbgValid (.xorshift 64) 11 13) halveAct t := by
  obtain ⟨t, as, ht, _, h2⟩ := cmpDbgExAfter
  exact ⟨t, as, ht, h2, ((C134_compact_debug_loops cmpDbgExOK cmpDbgExOps_valid ht).1 halveAct (fun l _ => halveAct_fits (by decide) l)).1 (by omega)⟩

example : ∃ t as, Tab.run grpDbgEx (Tab.new grpDbgEx 11 13) grpDbgExShort = .ok (t, as) ∧ t.size = 2 ∧
    EraseForwardSpec grpDbgEx (fun v => v % 2 ^ 13) 11 (GrpDbgValid (.xorshift 64) 11 13) .recheck (fun _ _ => .erase) t := by
  obtain ⟨t, as, ht, _, h2, _⟩ := grpDbgExAfter
  exact ⟨t, as, ht, h2, ((C134_group_debug_loops grpExOK grpDbgExShort_valid ht).1 (fun _ _ => .erase) (fun l _ e _ x hx => by cases hx)).2 _⟩

/-- the sizes of a table before and after a loop in a debug build -/
def dbgLoopSizes (ops : List MapOp) (mode : AfterErase) (act : Nat → Nat → LoopAct) : Option (Nat × Nat) :=
  match Tab.run cmpDbgEx (Tab.new cmpDbgEx 11 13) ops with
  | .ok (t, _) => match t.forwardAll cmpDbgEx mode act with
    | .ok (t', _) => some (t.size, t'.size)
    | .error _ => none
  | .error _ => none

/-- in a table with ten elements the loop erases two -/
example : dbgLoopSizes ((List.range 10).map (fun i => .insert (37 * i) (5 * i))) .recheck halveAct = some (10, 8) := by
  decide +kernel

end SC
