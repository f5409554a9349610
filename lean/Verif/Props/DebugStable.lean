import Verif.Props.Stable
import Verif.Props.StableOv
import Verif.Props.DebugCompact
import Verif.Props.DebugMapFile
import Verif.Props.DebugGroupMapFile
/-!
# How long a navigator can be used in a debug build: C133

The specifications are those of the release builds, `StableSpec` (C91) and `StableOvSpec` (C122).  In a debug build more calls fail, so the statement also
says that reading through a navigator fails no assertion.
-/
namespace SC

variable {KB VB : Type} {k : DbgCfg KB} {vops : BucketOps VB} {vnull : VB → Bool} {strat : Strategy} {maxBucket W kbits vbits kw vw : Nat}
  {hk : HashKind} {tr : Nat → Nat → Nat} {v : VarCfg} {g : GrpCfg} {c : MapEnv}

/-- **C133** for `separate_chaining_map` without overflow table -/
theorem C133_separate_debug_stable (h : SepDbgTabOK k vops vnull maxBucket hk kbits vbits tr W kw vw) {ops : List MapOp}
    (hops : ∀ op ∈ ops, DbgValid strat hk W kw vw op) {t : Tab (SepDbg (DbgB KB) VB) Unit} {as : List Ans}
    (ht : Tab.run (dbgMap k vops vnull strat maxBucket hk kbits) (Tab.new (dbgMap k vops vnull strat maxBucket hk kbits) kw vw) ops =
      .ok (t, as)) : StableSpec (dbgMap k vops vnull strat maxBucket hk kbits) kw (DbgValid strat hk W kw vw) t := by
  obtain ⟨KRep, VRep, L, hg, _⟩ := h.par strat true
  have hv : ∀ op, DbgValid strat hk W kw vw op → OpOK _ op := fun op hop => by
    obtain ⟨v1, v2⟩ := hop
    refine ValidOp.opOK (vals := fun v => v < 2 ^ vw) L.hi_lt L.lo_pos (fun v hv => fit_iff.mpr hv)
      (fit_iff.mpr (Nat.two_pow_pos _)) v1 ?_
    by_cases hs : strat = .arbitrary
    · exact .inl (v2 hs)
    · exact .inr (decide_eq_true hs)
  obtain ⟨t', l, h1, h2, h3⟩ := Tab.run_new L hg ops (fun op hop => hv op (hops op hop))
  have : t' = t := congrArg Prod.fst (Except.ok.inj (h1.symm.trans ht))
  subst t'
  exact fact_stableSpec L (fun _ _ _ _ h => h.1) hg hv ⟨l, h2, h3⟩

/-- **C133** for `compact_chaining_map` -/
theorem C133_compact_debug_stable (h : CmpDbgTabOK v hk kbits kw vw) {ops : List MapOp} (hops : ∀ op ∈ ops, CmpDbgValid hk kw vw op)
    {t : Tab CmpDbg Unit} {as : List Ans}
    (ht : Tab.run (cmpDbg v hk kbits) (Tab.new (cmpDbg v hk kbits) kw vw) ops = .ok (t, as)) :
    StableSpec (cmpDbg v hk kbits) kw (CmpDbgValid hk kw vw) t := by
  obtain ⟨L, hg, _⟩ := h.par
  obtain ⟨t', h1, h2⟩ := cmpDbg_sem h hops
  have : t' = t := congrArg Prod.fst (Except.ok.inj (h1.symm.trans ht))
  subst t'
  exact fact_stableSpec L (fun _ _ _ _ h => h.1) hg (fun op hop => ValidOp.opOK (vals := fun v => v < 2 ^ vw) L.hi_lt L.lo_pos
    (fun _ hv => fit_iff (tr := fun w v => v % 2 ^ w).mpr hv) (fit_iff (tr := fun w v => v % 2 ^ w).mpr (Nat.two_pow_pos _)) hop (.inr rfl)) h2

/-- **C133** for `group_chaining_table` without overflow table -/
theorem C133_group_debug_stable (h : GrpOK hk kw vw) {ops : List MapOp} (hops : ∀ op ∈ ops, GrpDbgValid hk kw vw op)
    {t : Tab GrpDbg Unit} {as : List Ans} (ht : Tab.run (grpDbg g hk) (Tab.new (grpDbg g hk) kw vw) ops = .ok (t, as)) :
    StableSpec (grpDbg g hk) kw (GrpDbgValid hk kw vw) t := by
  obtain ⟨L, hg, _⟩ := h.dbgPar (g := g)
  obtain ⟨t', h1, h2⟩ := grpDbg_sem (g := g) h hops
  have : t' = t := congrArg Prod.fst (Except.ok.inj (h1.symm.trans ht))
  subst t'
  exact fact_stableSpec L (fun _ _ _ _ h => h.1) hg (fun op hop => ValidOp.opOK (vals := fun v => v < 2 ^ vw) L.hi_lt L.lo_pos
    (fun _ hv => fit_iff (tr := fun w v => v % 2 ^ w).mpr hv) (fit_iff (tr := fun w v => v % 2 ^ w).mpr (Nat.two_pow_pos _)) hop (.inr rfl)) h2

/-- the assertion of `erase` in the overflow table holds at the position of an element -/
theorem steady_map_dbg (hc : c.good) : SteadyErase (mapOverflowDbg c) (MapRep c) := by
  intro o n l full l₁ l₂ e h hl
  obtain ⟨o', h1, h2⟩ := steady_map hc o n l full l₁ l₂ e h hl
  refine ⟨o', ?_, h2⟩
  show (do ddcheck true (e.1 < o.count); (mapOverflow c).erase o e.1 : Res MapOv) = _
  rw [ddcheck_ok (h.lt hc (by rw [hl]; simp)), ok_bind, h1]

/-- **C133** for `separate_chaining_map<..., map_overflow>` -/
theorem C133_separate_debug_overflow_stable (h : SepDbgTabOK k vops vnull maxBucket hk kbits vbits tr W kw vw) (hc : c.good) (hr : c.roomy)
    (hf : DbgFits c (tr vw) vw) {ops : List MapOp} (hops : ∀ op ∈ ops, DbgValid strat hk W kw vw op)
    {t : Tab (SepDbg (DbgB KB) VB) MapOv} {as : List Ans}
    (ht : Tab.run (dbgMapOv k vops vnull strat maxBucket hk kbits c) (Tab.new (dbgMapOv k vops vnull strat maxBucket hk kbits c) kw vw) ops =
      .ok (t, as)) : StableOvSpec (dbgMapOv k vops vnull strat maxBucket hk kbits c) kw (DbgValid strat hk W kw vw) t := by
  obtain ⟨KRep, VRep, L0⟩ := h.serial strat false
  obtain ⟨L, hv⟩ := dbg_map_run L0 hc hr hf
  obtain ⟨t', l, h1, h2, h3⟩ := Tab.run_new L L0.grow ops (fun op hop => hv op (hops op hop))
  have : t' = t := congrArg Prod.fst (Except.ok.inj (h1.symm.trans ht))
  subst t'
  exact fact_stableOvSpec L (steady_map_dbg hc) L0.grow hv ⟨l, h2, h3⟩

/-- **C133** for `group_chaining_table<..., map_overflow>` -/
theorem C133_group_debug_overflow_stable (h : GrpOK hk kw vw) (hc : c.good) (hr : c.roomy) (hf : DbgFits c (fun v => v % 2 ^ vw) vw)
    {ops : List MapOp} (hops : ∀ op ∈ ops, GrpDbgValid hk kw vw op) {t : Tab GrpDbg MapOv} {as : List Ans}
    (ht : Tab.run (grpDbgOv g hk c) (Tab.new (grpDbgOv g hk c) kw vw) ops = .ok (t, as)) :
    StableOvSpec (grpDbgOv g hk c) kw (GrpDbgValid hk kw vw) t := by
  obtain ⟨L0, hg, _⟩ := h.dbgPar (g := g)
  have L : Laws (grpDbgOv g hk c) (grpDbgParMap true c g hk kw vw) := L0.setOv (dbg_ov_lawful (tr := fun w v => v % 2 ^ w) hc hr hf)
  obtain ⟨t', l, h1, h2, h3⟩ := Tab.run_new L hg ops (fun op hop => grp_dbg_valid L (hops op hop))
  have : t' = t := congrArg Prod.fst (Except.ok.inj (h1.symm.trans ht))
  subst t'
  exact fact_stableOvSpec L (steady_map_dbg hc) hg (fun op hop => grp_dbg_valid L hop) ⟨l, h2, h3⟩

/-- 59 elements in 32 buckets, of which four are in the overflow table: key 697, there at position 16, stays during further insertions, an assignment and
`shrink_to_fit()`, and when key 816 in the overflow table is erased -/
example : navTraceOv dbgOvEx 10 20 ovExOps [.insert 1001 1, .insert 1013 3, .assign 697 9, .get 5, .shrink] 697 =
      some (⟨32, 16⟩, ⟨32, 16⟩, 32, 32) ∧
    navTraceOv dbgOvEx 10 20 ovExOps [.erase 816] 697 = some (⟨32, 16⟩, ⟨32, 16⟩, 32, 32) :=
  ⟨by decide +kernel, by decide +kernel⟩

example : ∃ t, Tab.run dbgOvEx (Tab.new dbgOvEx 10 20) ovExOps = .ok (t, FMap.empty.run (fun v => v % 2 ^ 32) ovExOps) ∧
    StableOvSpec dbgOvEx 10 (DbgValid .arbitrary (.xorshift 16) 16 10 20) t := by
  obtain ⟨_, t, ht⟩ := C107_separate_debug_overflow dbgExOK ovEx_good ovEx_roomy ovEx_dbgFits .arbitrary ovExOps dbgOvExOps_valid
  exact ⟨t, ht, C133_separate_debug_overflow_stable dbgExOK ovEx_good ovEx_roomy ovEx_dbgFits dbgOvExOps_valid ht⟩

/-- with elements in the overflow table -/
example : ∃ t : Tab GrpDbg MapOv, t.ovf.items ≠ [] ∧ StableOvSpec grpDbgOvEx 11 (GrpDbgValid (.xorshift 64) 11 13) t := by
  obtain ⟨ops, hv, t, as, ht, h0⟩ := dbg_spill_ex
  exact ⟨t, h0, C133_group_debug_overflow_stable grpExOK ovEx_good ovEx_roomy ovEx_dbgFits_grp hv ht⟩

example : ∃ t as, Tab.run dbgEx (Tab.new dbgEx 10 20) exOps = .ok (t, as) ∧ t.size = 60 ∧
    StableSpec dbgEx 10 (DbgValid .arbitrary (.xorshift 16) 16 10 20) t := by
  obtain ⟨t, as, ht, _, h2⟩ := dbgExAfter
  exact ⟨t, as, ht, h2, C133_separate_debug_stable dbgExOK dbgExOps_valid ht⟩

example : ∃ t as, Tab.run cmpDbgEx (Tab.new cmpDbgEx 11 13) cmpExOps = .ok (t, as) ∧ t.size = 40 ∧
    StableSpec cmpDbgEx 11 (CmpDbgValid (.xorshift 64) 11 13) t := by
  obtain ⟨t, as, ht, _, h2⟩ := cmpDbgExAfter
  exact ⟨t, as, ht, h2, C133_compact_debug_stable cmpDbgExOK cmpDbgExOps_valid ht⟩

example : ∃ t as, Tab.run grpDbgEx (Tab.new grpDbgEx 11 13) grpDbgExShort = .ok (t, as) ∧ t.size = 2 ∧
    StableSpec grpDbgEx 11 (GrpDbgValid (.xorshift 64) 11 13) t := by
  obtain ⟨t, as, ht, _, h2, _⟩ := grpDbgExAfter
  exact ⟨t, as, ht, h2, C133_group_debug_stable grpExOK grpDbgExShort_valid ht⟩

end SC
