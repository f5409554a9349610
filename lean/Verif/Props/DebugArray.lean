import Verif.Overflow.ArrayDebug
import Verif.Props.ArrayTable
import Verif.Props.DebugOverflow
/-!
# Debug builds of tables with `array_overflow`: C113

`junk` is what fresh memory holds.
-/
namespace SC

variable {KB VB : Type} {k : DbgCfg KB} {vops : BucketOps VB} {vnull : VB → Bool} {strat : Strategy} {maxBucket : Nat}
  {hk : HashKind} {kbits vbits : Nat} {tr : Nat → Nat → Nat} {W kw vw : Nat} {c : ArrEnv} {junk : Nat → Nat}

/-- `separate_chaining_map<..., array_overflow>` in a debug build -/
abbrev dbgMapArr (k : DbgCfg KB) (vops : BucketOps VB) (vnull : VB → Bool) (strat : Strategy) (maxBucket : Nat) (hk : HashKind)
    (kbits : Nat) (c : ArrEnv) (junk : Nat → Nat) : Cfg (SepDbg (DbgB KB) VB) ArrOv :=
  (dbgMap k vops vnull strat maxBucket hk kbits).setOv (arrDbg c (arrJunk c junk))

/-- `group_chaining_table<..., array_overflow>` in a debug build -/
abbrev grpDbgArr (g : GrpCfg) (hk : HashKind) (c : ArrEnv) (junk : Nat → Nat) : Cfg GrpDbg ArrOv :=
  (grpDbg g hk).setOv (arrDbg c (arrJunk c junk))

/-- the same tables with an array that is used as it should be -/
abbrev dbgMapIdeal (k : DbgCfg KB) (vops : BucketOps VB) (vnull : VB → Bool) (strat : Strategy) (maxBucket : Nat) (hk : HashKind)
    (kbits : Nat) (c : ArrEnv) (junk : Nat → Nat) : Cfg (SepDbg (DbgB KB) VB) ArrOv :=
  (dbgMap k vops vnull strat maxBucket hk kbits).setOv (arrDbg c (arrIdeal c junk))

/-- values of at most `vw` bits are stored alike in buckets and in the overflow table -/
def ArrDbgFits (c : ArrEnv) (tr : Nat → Nat) (vw : Nat) : Prop := ∀ v, v < 2 ^ vw → v % 2 ^ c.vs = tr v

theorem arr_dbg_lawful (hf : ArrDbgFits c (tr vw) vw) :
    LawfulOverflow (arrDbg c (arrIdeal c junk)) (fitNormO tr vw) IdealRep (fun v => fitNormO tr vw v = fitNorm tr vw v) :=
  (lawful_ideal_dbg c junk).fit fun v hv => by
    have hlt := fit_iff.mp hv
    rw [hv, fit_eq hlt]
    exact hf v hlt

theorem arr_dbg_agree (c : ArrEnv) (junk : Nat → Nat) :
    OvAgree (arrDbg c (arrJunk c junk)) (arrDbg c (arrIdeal c junk)) (NotJunk c junk) (JunkOK c (NotJunk c junk)) :=
  (junk_agree c junk (NotJunk c junk) (fun _ hk => hk.1) (fun i hi hk => hk.2 i hi rfl)).dbg c

/-- what is known after a history -/
theorem dbg_arr_run {KRep : DbgB KB → Nat → Nat → List Nat → Prop} {VRep : VB → Nat → Nat → List Nat → Prop} {tight : Bool}
    (L0 : SepDbgLaws (dbgCfg k vops vnull strat maxBucket hk kbits) hk vbits tr tight W kw vw KRep VRep) (hf : ArrDbgFits c (tr vw) vw)
    {ops : List MapOp} (hops : ∀ op ∈ ops, DbgValid strat hk W kw vw op ∧ op.tame (NotJunk c junk)) :
    Laws (dbgMapIdeal k vops vnull strat maxBucket hk kbits c junk)
        ((sepDbgPar (dbgCfg k vops vnull strat maxBucket hk kbits) hk KRep VRep tr tight W kw vw).setOv IdealRep) ∧ ∃ t l,
      Tab.run (dbgMapArr k vops vnull strat maxBucket hk kbits c junk)
          (Tab.new (dbgMapArr k vops vnull strat maxBucket hk kbits c junk) kw vw) ops = .ok (t, FMap.empty.run (tr vw) ops) ∧
        Inv (dbgMapIdeal k vops vnull strat maxBucket hk kbits c junk)
          ((sepDbgPar (dbgCfg k vops vnull strat maxBucket hk kbits) hk KRep VRep tr tight W kw vw).setOv IdealRep) t l ∧
        Abs l (FMap.empty.after (tr vw) ops) := by
  have L : Laws (dbgMapIdeal k vops vnull strat maxBucket hk kbits c junk)
      ((sepDbgPar (dbgCfg k vops vnull strat maxBucket hk kbits) hk KRep VRep tr tight W kw vw).setOv IdealRep) :=
    L0.laws.setOv (arr_dbg_lawful hf)
  refine ⟨L, ?_⟩
  obtain ⟨t', l, h1, h2, h3, _⟩ := run_withOv (g := dbgMapIdeal k vops vnull strat maxBucket hk kbits c junk)
    (arr_dbg_agree c junk) L L0.grow ops (fun op hop => by
      obtain ⟨⟨v1, v2⟩, v3⟩ := hops op hop
      refine ⟨ValidOp.opOK (vals := fun v => v < 2 ^ vw) L.hi_lt L.lo_pos (fun v hv => fit_iff.mpr hv)
        (fit_iff.mpr (Nat.two_pow_pos _)) v1 ?_, v3⟩
      by_cases hs : strat = .arbitrary
      · exact .inl (v2 hs)
      · exact .inr (decide_eq_true hs))
  have e := FMap.run_congr (f := fitNorm tr vw) (g := tr vw) (fit_eq (Nat.two_pow_pos _)) (fun v hv => fit_eq hv) ops FMap.empty
    (fun op hop => (hops op hop).1.1)
  refine ⟨t', l, ?_, h2, ?_⟩
  · rw [← e.1]; exact h1
  · rw [← e.2]; exact h3

/-! ## C113 -/

/-- **C113**, true part, `separate_chaining_map`: in a debug build with `array_overflow`, every sequence of valid calls on a new table
that neither erases nor clears, and mentions no key that is among the numbers that the uninitialised array happens to hold, runs
without a failing assertion and gives the answers of a finite map.  Missing: wrong answers elsewhere are not caught by the assertions,
see `C113_junk_key_false` and `C113_erase_false`. -/
theorem C113_separate_debug_array_partial (h : SepDbgTabOK k vops vnull maxBucket hk kbits vbits tr W kw vw)
    (hf : ArrDbgFits c (tr vw) vw) (strat : Strategy) (ops : List MapOp)
    (hops : ∀ op ∈ ops, DbgValid strat hk W kw vw op ∧ op.tame (NotJunk c junk)) :
    sepDbgNew hk kbits vbits kw vw = .ok () ∧ ∃ t,
      Tab.run (dbgMapArr k vops vnull strat maxBucket hk kbits c junk)
        (Tab.new (dbgMapArr k vops vnull strat maxBucket hk kbits c junk) kw vw) ops = .ok (t, FMap.empty.run (tr vw) ops) := by
  obtain ⟨_, _, L⟩ := h.serial strat true
  obtain ⟨_, t, _, h1, _⟩ := dbg_arr_run L hf hops
  exact ⟨L.new, t, h1⟩

/-- **C113**, true part, `group_chaining_table`. -/
theorem C113_group_debug_array_partial {g : GrpCfg} (h : GrpOK hk kw vw) (hf : ArrDbgFits c (fun v => v % 2 ^ vw) vw)
    (ops : List MapOp) (hops : ∀ op ∈ ops, GrpDbgValid hk kw vw op ∧ op.tame (NotJunk c junk)) :
    grpDbgNew hk kw vw = .ok () ∧ ∃ t,
      Tab.run (grpDbgArr g hk c junk) (Tab.new (grpDbgArr g hk c junk) kw vw) ops =
        .ok (t, FMap.empty.run (fun v => v % 2 ^ vw) ops) := by
  obtain ⟨L0, hg, hnew⟩ := h.dbgPar (g := g)
  have L : Laws ((grpDbg g hk).setOv (arrDbg c (arrIdeal c junk))) ((grpDbgPar true (grpDbgCfg g hk) hk kw vw).setOv IdealRep) :=
    L0.setOv (arr_dbg_lawful (tr := fun w v => v % 2 ^ w) hf)
  obtain ⟨t, l, h1, h2, h3, h4⟩ := run_withOv (g := (grpDbg g hk).setOv (arrDbg c (arrIdeal c junk)))
    (arr_dbg_agree c junk) L hg ops (fun op hop => by
      obtain ⟨v1, v3⟩ := hops op hop
      exact ⟨ValidOp.opOK (vals := fun v => v < 2 ^ vw) L.hi_lt L.lo_pos (fun v hv => (fit_iff (tr := fun w v => v % 2 ^ w)).mpr hv)
        ((fit_iff (tr := fun w v => v % 2 ^ w)).mpr (Nat.two_pow_pos _)) v1 (.inr rfl), v3⟩)
  have e := FMap.run_congr (f := fitNorm (fun w v => v % 2 ^ w) vw) (g := fun v => v % 2 ^ vw) (fit_eq (Nat.two_pow_pos _))
    (fun v hv => fit_eq hv) ops FMap.empty (fun op hop => (hops op hop).1)
  refine ⟨hnew, t, ?_⟩
  rw [← e.1]; exact h1

theorem zeroEx_dbgFits {vw : Nat} : ArrDbgFits zeroEx (fun v => v % 2 ^ 32) vw := fun _ _ => rfl

/-- the table class of the examples -/
abbrev dbgArrEx : Cfg (SepDbg (DbgB PlainB) (DbgB PlainB)) ArrOv :=
  dbgMapArr (dbgPlain 16 12345) (dbgOps (dbgPlain 32 678)) (fun b => b.data.isNone) .arbitrary 3 (.xorshift 16) 64 zeroEx (fun _ => 0)

theorem dbgArrExOps_valid : ∀ op ∈ zeroExOps, DbgValid .arbitrary (.xorshift 16) 16 10 20 op ∧ op.tame (NotJunk zeroEx (fun _ => 0)) := by
  decide +kernel

example : ∃ t, Tab.run dbgArrEx (Tab.new dbgArrEx 10 20) zeroExOps = .ok (t, FMap.empty.run (fun v => v % 2 ^ 32) zeroExOps) :=
  (C113_separate_debug_array_partial dbgExOK zeroEx_dbgFits .arbitrary zeroExOps dbgArrExOps_valid).2

/-- in the example, elements are in the overflow table -/
example : (match Tab.run dbgArrEx (Tab.new dbgArrEx 10 20) (zeroExOps.take 60) with
    | .ok (t, _) => decide (0 < t.ovf.elems)
    | .error _ => false) = true := by decide +kernel

example : ∃ t, Tab.run (grpDbgArr grpEx (.xorshift 64) zeroEx (fun _ => 0)) (Tab.new (grpDbgArr grpEx (.xorshift 64) zeroEx (fun _ => 0)) 11 13)
    [.insert 5 6, .insert 1000 7, .find 5, .size] =
    .ok (t, FMap.empty.run (fun v => v % 2 ^ 13) [.insert 5 6, .insert 1000 7, .find 5, .size]) :=
  (C113_group_debug_array_partial grpExOK (fun v hv => by
    refine Eq.trans ?_ (Nat.mod_eq_of_lt hv).symm
    exact Nat.mod_eq_of_lt (Nat.lt_of_lt_of_le hv (show 2 ^ 13 ≤ 2 ^ 32 by decide))) _ (by decide +kernel)).2

/-- **C113** is false: no assertion fails although a key that has been inserted is reported as absent. -/
theorem C113_junk_key_false : ∃ ks : List Nat, (∀ k ∈ ks, k < 2 ^ 10) ∧ 0 ∈ ks ∧
    (∃ t as, Tab.run dbgArrEx (Tab.new dbgArrEx 10 20) (ks.map (fun k => .insert k 1) ++ [.count 0, .find 0]) =
      .ok (t, as ++ [.num 0, .absent])) := by
  refine ⟨[0, 3, 20, 37], by decide, by simp, ?_⟩
  have h : (match Tab.run dbgArrEx (Tab.new dbgArrEx 10 20) ([0, 3, 20, 37].map (fun k => .insert k 1) ++ [.count 0, .find 0]) with
    | .ok (_, as) => as == [.pair 0 1, .pair 3 1, .pair 20 1, .pair 37 1] ++ [.num 0, .absent]
    | .error _ => false) = true := by decide +kernel
  split at h
  · next t as he => exact ⟨t, _, by rw [he, beq_iff_eq.mp h]⟩
  · cases h

/-- **C113** is false: no assertion fails although the erasure of a key removes another one. -/
theorem C113_erase_false : ∃ ks : List Nat, (∀ k ∈ ks, k < 2 ^ 10 ∧ NotJunk zeroEx (fun _ => 0) k) ∧
    ∃ x ∈ ks, ∃ y ∈ ks, x ≠ y ∧
    (∃ t as, Tab.run dbgArrEx (Tab.new dbgArrEx 10 20) (ks.map (fun k => .insert k 1) ++ [.erase x, .count x, .count y]) =
      .ok (t, as ++ [.num 1, .num 1, .num 0])) := by
  refine ⟨[3, 20, 37, 48, 59], by decide +kernel, 48, by simp, 59, by simp, by decide, ?_⟩
  have h : (match Tab.run dbgArrEx (Tab.new dbgArrEx 10 20)
      ([3, 20, 37, 48, 59].map (fun k => .insert k 1) ++ [.erase 48, .count 48, .count 59]) with
    | .ok (_, as) => as == [.pair 3 1, .pair 20 1, .pair 37 1, .pair 48 1, .pair 59 1] ++ [.num 1, .num 1, .num 0]
    | .error _ => false) = true := by decide +kernel
  split at h
  · next t as he => exact ⟨t, _, by rw [he, beq_iff_eq.mp h]⟩
  · cases h

end SC
