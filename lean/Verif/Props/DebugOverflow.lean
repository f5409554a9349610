import Verif.Overflow.MapDebug
import Verif.Table.SetOv
import Verif.Props.DebugGroup
import Verif.Props.Overflow
/-!
# Debug builds of tables with `map_overflow`: C107, C108

`c` is what the implementations of `std::unordered_map` and `tdc::BitVector` are free to choose.
-/
namespace SC

variable {KB VB : Type} {k : DbgCfg KB} {vops : BucketOps VB} {vnull : VB → Bool} {strat : Strategy} {maxBucket : Nat}
  {hk : HashKind} {kbits vbits : Nat} {tr : Nat → Nat → Nat} {W kw vw : Nat} {c : MapEnv}

/-- `separate_chaining_map<..., map_overflow>` in a debug build -/
abbrev dbgMapOv (k : DbgCfg KB) (vops : BucketOps VB) (vnull : VB → Bool) (strat : Strategy) (maxBucket : Nat) (hk : HashKind)
    (kbits : Nat) (c : MapEnv) : Cfg (SepDbg (DbgB KB) VB) MapOv :=
  (dbgMap k vops vnull strat maxBucket hk kbits).setOv (mapOverflowDbg c)

/-- `group_chaining_table<..., map_overflow>` in a debug build -/
abbrev grpDbgOv (g : GrpCfg) (hk : HashKind) (c : MapEnv) : Cfg GrpDbg MapOv := (grpDbg g hk).setOv (mapOverflowDbg c)

/-- values of at most `vw` bits are stored alike in buckets and in the overflow table (this excludes sets) -/
def DbgFits (c : MapEnv) (tr : Nat → Nat) (vw : Nat) : Prop := ∀ v, v < 2 ^ vw → v % 2 ^ c.vbits = tr v

theorem dbg_ov_lawful (hc : c.good) (hr : c.roomy) (hf : DbgFits c (tr vw) vw) :
    LawfulOverflow (mapOverflowDbg c) (fitNormO tr vw) (MapRep c) (fun v => fitNormO tr vw v = fitNorm tr vw v) :=
  (lawful_map_dbg c hc hr).fit fun v hv => by
    have hlt := fit_iff.mp hv
    rw [hv, fit_eq hlt]
    exact hf v hlt

/-- what is known after a history -/
theorem dbg_ov_sem (h : SepDbgTabOK k vops vnull maxBucket hk kbits vbits tr W kw vw) (hc : c.good) (hr : c.roomy)
    (hf : DbgFits c (tr vw) vw) {ops : List MapOp} (hops : ∀ op ∈ ops, DbgValid strat hk W kw vw op) :
    ∃ P : Par (SepDbg (DbgB KB) VB) MapOv, Laws (dbgMapOv k vops vnull strat maxBucket hk kbits c) P ∧ P.grow < 65 ∧ P.RepO = MapRep c ∧
      P.kw = kw ∧ P.vw = vw ∧ P.norm = fitNorm tr ∧ (∀ v, v < 2 ^ vw → P.normO v = P.norm vw v) ∧
      sepDbgNew hk kbits vbits kw vw = .ok () ∧ ∃ t l,
      Tab.run (dbgMapOv k vops vnull strat maxBucket hk kbits c) (Tab.new (dbgMapOv k vops vnull strat maxBucket hk kbits c) kw vw) ops =
        .ok (t, FMap.empty.run (tr vw) ops) ∧ Inv (dbgMapOv k vops vnull strat maxBucket hk kbits c) P t l ∧
        Abs l (FMap.empty.after (tr vw) ops) := by
  obtain ⟨KRep, VRep, L0, hg, hnew⟩ := h.par strat true
  have L : Laws (dbgMapOv k vops vnull strat maxBucket hk kbits c)
      ((sepDbgPar (dbgCfg k vops vnull strat maxBucket hk kbits) hk KRep VRep tr true W kw vw).setOv (MapRep c)) :=
    L0.setOv (dbg_ov_lawful hc hr hf)
  refine ⟨_, L, hg, rfl, rfl, rfl, rfl, fun v hv => fit_iff.mpr hv, hnew, ?_⟩
  obtain ⟨t', l, h1, h2, h3⟩ := Tab.run_new L hg ops (fun op hop => by
    obtain ⟨v1, v2⟩ := hops op hop
    refine ValidOp.opOK (vals := fun v => v < 2 ^ vw) L.hi_lt L.lo_pos (fun v hv => fit_iff.mpr hv)
      (fit_iff.mpr (Nat.two_pow_pos _)) v1 ?_
    by_cases hs : strat = .arbitrary
    · exact .inl (v2 hs)
    · exact .inr (decide_eq_true hs))
  have e := FMap.run_congr (f := fitNorm tr vw) (g := tr vw) (fit_eq (Nat.two_pow_pos _)) (fun v hv => fit_eq hv) ops FMap.empty
    (fun op hop => (hops op hop).1)
  refine ⟨t', l, ?_, h2, ?_⟩
  · rw [← e.1]; exact h1
  · rw [← e.2]; exact h3

/-! ## C107 -/

/-- **C107**, `separate_chaining_map`: in a debug build with `map_overflow` every sequence of valid calls on a new table runs without a
failing assertion and gives the answers of a finite map. -/
theorem C107_separate_debug_overflow (h : SepDbgTabOK k vops vnull maxBucket hk kbits vbits tr W kw vw) (hc : c.good) (hr : c.roomy)
    (hf : DbgFits c (tr vw) vw) (strat : Strategy) (ops : List MapOp) (hops : ∀ op ∈ ops, DbgValid strat hk W kw vw op) :
    sepDbgNew hk kbits vbits kw vw = .ok () ∧ ∃ t,
      Tab.run (dbgMapOv k vops vnull strat maxBucket hk kbits c) (Tab.new (dbgMapOv k vops vnull strat maxBucket hk kbits c) kw vw) ops =
        .ok (t, FMap.empty.run (tr vw) ops) := by
  obtain ⟨P, _, _, _, _, _, _, _, hnew, t, _, h1, _⟩ := dbg_ov_sem (strat := strat) h hc hr hf hops
  exact ⟨hnew, t, h1⟩

/-- **C107**, `group_chaining_table`. -/
theorem C107_group_debug_overflow {g : GrpCfg} (h : GrpOK hk kw vw) (hc : c.good) (hr : c.roomy)
    (hf : DbgFits c (fun v => v % 2 ^ vw) vw) (ops : List MapOp) (hops : ∀ op ∈ ops, GrpDbgValid hk kw vw op) :
    grpDbgNew hk kw vw = .ok () ∧ ∃ t,
      Tab.run (grpDbgOv g hk c) (Tab.new (grpDbgOv g hk c) kw vw) ops = .ok (t, FMap.empty.run (fun v => v % 2 ^ vw) ops) := by
  obtain ⟨L0, hg, hnew⟩ := h.dbgPar (g := g)
  have L : Laws (grpDbgOv g hk c) ((grpDbgPar true (grpDbgCfg g hk) hk kw vw).setOv (MapRep c)) :=
    L0.setOv (dbg_ov_lawful (tr := fun w v => v % 2 ^ w) hc hr hf)
  obtain ⟨t, h1, _⟩ := fit_sem L hg (tr := fun w v => v % 2 ^ w) rfl rfl rfl hops
  exact ⟨hnew, t, h1⟩

theorem ovEx_roomy : ovEx.roomy := by
  intro n m hm
  simp only [ovEx]
  have : NPOS = 2 ^ 64 - 1 := rfl
  omega

theorem ovEx_dbgFits {vw : Nat} : DbgFits ovEx (fun v => v % 2 ^ 32) vw := fun _ _ => rfl

/-- the table class of the examples -/
abbrev dbgOvEx : Cfg (SepDbg (DbgB PlainB) (DbgB PlainB)) MapOv :=
  dbgMapOv (dbgPlain 16 12345) (dbgOps (dbgPlain 32 678)) (fun b => b.data.isNone) .arbitrary 3 (.xorshift 16) 64 ovEx

theorem dbgOvExOps_valid : ∀ op ∈ ovExOps, DbgValid .arbitrary (.xorshift 16) 16 10 20 op := by decide +kernel

example : ∃ t, Tab.run dbgOvEx (Tab.new dbgOvEx 10 20) ovExOps = .ok (t, FMap.empty.run (fun v => v % 2 ^ 32) ovExOps) :=
  (C107_separate_debug_overflow dbgExOK ovEx_good ovEx_roomy ovEx_dbgFits .arbitrary ovExOps dbgOvExOps_valid).2

/-- in the example four elements are in the overflow table -/
example : (match Tab.run dbgOvEx (Tab.new dbgOvEx 10 20) ovExOps with
    | .ok (t, _) => t.ovf.items.length == 4
    | .error _ => false) = true := by decide +kernel

example : ∃ t, Tab.run (grpDbgOv grpEx (.xorshift 64) ovEx) (Tab.new (grpDbgOv grpEx (.xorshift 64) ovEx) 11 13) grpDbgExShort =
    .ok (t, FMap.empty.run (fun v => v % 2 ^ 13) grpDbgExShort) :=
  (C107_group_debug_overflow grpExOK ovEx_good ovEx_roomy (fun v hv => by
    refine Eq.trans ?_ (Nat.mod_eq_of_lt hv).symm
    exact Nat.mod_eq_of_lt (Nat.lt_of_lt_of_le hv (show 2 ^ 13 ≤ 2 ^ 32 by decide))) grpDbgExShort grpDbgExShort_valid).2

/-! ## C108 -/

/-- **C108**, true part: when a value above `max_value()` is assigned, a debug build throws, or the element is in the overflow table.
Missing: the elements in the overflow table, see `C108_spilled_false`. -/
theorem C108_wide_value_partial (h : SepDbgTabOK k vops vnull maxBucket hk kbits vbits tr W kw vw) (hc : c.good) (hr : c.roomy)
    (hf : DbgFits c (tr vw) vw) {ops : List MapOp} (hops : ∀ op ∈ ops, DbgValid strat hk W kw vw op) {x v : Nat} (hx : x < 2 ^ kw)
    (hv : 2 ^ vw ≤ v) :
    Tab.run (dbgMapOv k vops vnull strat maxBucket hk kbits c) (Tab.new (dbgMapOv k vops vnull strat maxBucket hk kbits c) kw vw)
      (ops ++ [.assign x v]) = .error .exc ∨
    ∃ t as t' n, Tab.run (dbgMapOv k vops vnull strat maxBucket hk kbits c)
        (Tab.new (dbgMapOv k vops vnull strat maxBucket hk kbits c) kw vw) ops = .ok (t, as) ∧
      t.subscript (dbgMapOv k vops vnull strat maxBucket hk kbits c) x = .ok (t', n) ∧ n.bucket = t'.bucketCount ∧
      (∃ y, (x, y) ∈ t'.ovf.items) := by
  obtain ⟨P, L, hg, hrep, e1, e2, e3, e4, _, t, l, h1, h2, h3⟩ := dbg_ov_sem (strat := strat) h hc hr hf hops
  subst e1 e2
  obtain ⟨t', n, y, l', c', o, full, a1, _, _, hl, hloc, _⟩ := h2.insert_abs L hg h3 hx (e4 0 (Nat.two_pow_pos _))
  have a1' : t.subscript (dbgMapOv k vops vnull strat maxBucket hk kbits c) x = .ok (t', n) := a1
  rcases hloc with ⟨q, b, i, hi, rfl, hb, hm, hc', hk'⟩ | ⟨p, rfl, hp⟩
  · left
    refine Tab.run_one_error _ h1 ?_
    have hbc := hl.bc L
    have hvw : (t'.dim (dbgMapOv k vops vnull strat maxBucket hk kbits c)).vw = P.vw := hl.tvw
    have hw : (dbgMapOv k vops vnull strat maxBucket hk kbits c).ops.writeValue t'.store
        (t'.dim (dbgMapOv k vops vnull strat maxBucket hk kbits c)) b i v = .error .exc := by
      show ((ddcheck true (b < t'.store.base.n)) >>= fun _ => _) = _
      by_cases hbn : b < t'.store.base.n
      · rw [ddcheck_ok hbn, ok_bind, hvw, ddcheck_fails (by have := Nat.two_pow_pos P.vw; omega), error_bind]
      · rw [ddcheck_fails hbn, error_bind]
    simp only [Tab.step, a1', ok_bind, Tab.writeValue, hbc, if_neg (show ¬ b = 2 ^ t'.tb by omega), ddcheck_ok hb, hw, error_bind]
  · right
    have hrepo := hl.orep
    rw [hrep] at hrepo
    exact ⟨t, _, t', _, h1, a1', (hl.bc L).symm, y, hrepo.perm.mem_iff.mp (List.mem_map_of_mem (f := Prod.snd) hp)⟩

/-- `ovEx` for values of 64 bits -/
def ovEx64 : MapEnv := { ovEx with vbits := 64 }

theorem ovEx64_good : ovEx64.good := ⟨ovEx_good.1, ovEx_good.2, ovEx_good.3, ovEx_good.4, ovEx_good.5⟩

theorem ovEx64_roomy : ovEx64.roomy := ovEx_roomy

theorem ovEx64_dbgFits : DbgFits ovEx64 (fun v => v % 2 ^ 20) 20 := fun v hv => by
  refine Eq.trans ?_ (Nat.mod_eq_of_lt hv).symm
  exact Nat.mod_eq_of_lt (Nat.lt_of_lt_of_le hv (Nat.pow_le_pow_right (by decide) (show 20 ≤ 64 by decide)))

/-- the table class of the witness: the buckets for the values are `varwidth_bucket`s -/
abbrev dbgOvVar : Cfg (SepDbg (DbgB PlainB) (DbgB VarB)) MapOv :=
  dbgMapOv (dbgPlain 16 12345) (dbgOps (dbgVar ⟨64, false, fun _ => true⟩ 0)) (fun b => b.data.isNone) .arbitrary 3 (.xorshift 16) 64
    ovEx64

theorem dbgOvVarOK : SepDbgTabOK (dbgPlain 16 12345) (dbgOps (dbgVar ⟨64, false, fun _ => true⟩ 0)) (fun b => b.data.isNone) 3
    (.xorshift 16) 64 64 (fun w v => v % 2 ^ w) 16 10 20 where
  keys := dbgExOK.keys
  vals := .varwidth ⟨.inr (.inr (.inr rfl)), .inl rfl⟩ rfl
  max := dbgExOK.max
  hash := dbgExOK.hash
  vw_pos := by decide
  vw_le := by decide
  ktype := dbgExOK.ktype
  kw_le := dbgExOK.kw_le

/-- **C108** is false for elements in the overflow table: after valid calls, `map[850] = 2^20` is accepted and the value is found,
although `max_value()` is `2^20 - 1`; a valid call of `reserve`, which moves the element into a bucket, throws. -/
theorem C108_spilled_false : (∀ op ∈ ovExOps, DbgValid .arbitrary (.xorshift 16) 16 10 20 op) ∧
    DbgValid .arbitrary (.xorshift 16) 16 10 20 (.reserve 512) ∧
    (∃ t as, Tab.run dbgOvVar (Tab.new dbgOvVar 10 20) (ovExOps ++ [.assign 850 (2 ^ 20)]) = .ok (t, as) ∧
      t.lookup dbgOvVar 850 = .ok (some (850, 2 ^ 20))) ∧
    Tab.run dbgOvVar (Tab.new dbgOvVar 10 20) (ovExOps ++ [.assign 850 (2 ^ 20), .reserve 512]) = .error .exc := by
  refine ⟨dbgOvExOps_valid, by decide +kernel, ?_, ?_⟩
  · have h : (match Tab.run dbgOvVar (Tab.new dbgOvVar 10 20) (ovExOps ++ [.assign 850 (2 ^ 20)]) with
        | .ok (t, _) => (match t.lookup dbgOvVar 850 with | .ok r => r == some (850, 2 ^ 20) | .error _ => false)
        | .error _ => false) = true := by decide +kernel
    revert h
    cases Tab.run dbgOvVar (Tab.new dbgOvVar 10 20) (ovExOps ++ [.assign 850 (2 ^ 20)]) with
    | error e => intro h; cases h
    | ok r =>
      intro h
      refine ⟨r.1, r.2, rfl, ?_⟩
      simp only at h
      cases h1 : r.1.lookup dbgOvVar 850 with
      | error e => rw [h1] at h; cases h
      | ok y => rw [h1] at h; rw [beq_iff_eq.mp h]
  · have h : (match Tab.run dbgOvVar (Tab.new dbgOvVar 10 20) (ovExOps ++ [.assign 850 (2 ^ 20), .reserve 512]) with
        | .ok _ => false
        | .error e => e == .exc) = true := by decide +kernel
    revert h
    cases Tab.run dbgOvVar (Tab.new dbgOvVar 10 20) (ovExOps ++ [.assign 850 (2 ^ 20), .reserve 512]) with
    | error e => intro h; rw [beq_iff_eq.mp h]
    | ok r => intro h; cases h

/-- a value above `max_value()` assigned to an element in a bucket -/
example : Tab.run dbgOvVar (Tab.new dbgOvVar 10 20) (ovExOps ++ [.assign 34 (2 ^ 20)]) = .error .exc ∨
    ∃ t as t' n, Tab.run dbgOvVar (Tab.new dbgOvVar 10 20) ovExOps = .ok (t, as) ∧ t.subscript dbgOvVar 34 = .ok (t', n) ∧
      n.bucket = t'.bucketCount ∧ ∃ y, (34, y) ∈ t'.ovf.items :=
  C108_wide_value_partial dbgOvVarOK ovEx64_good ovEx64_roomy ovEx64_dbgFits dbgOvExOps_valid (show 34 < 2 ^ 10 by decide)
    (Nat.le_refl _)

end SC
