import Verif.Props.ArrayUpdate
import Verif.Table.StableOv
/-!
# How long a navigator can be used in a table with `array_overflow`: C139

The histories are those of C106 and C113, as in C137.  (Erasures are not among them, see C51.)
-/
namespace SC

variable {KB VB : Type} {p : SepCfg KB VB} {k : DbgCfg KB} {vops : BucketOps VB} {vnull : VB → Bool} {strat : Strategy}
  {maxBucket W kbits vbits kw vw : Nat} {hk : HashKind} {tr : Nat → Nat → Nat} {gc : GrpCfg} {c : ArrEnv} {junk : Nat → Nat}

/-! ## Specification -/

/-- How long a navigator to a key with `K` can be used. -/
structure StableArrSpec {S O : Type} (g : Cfg S O) (kw : Nat) (K : Nat → Prop) (valid : MapOp → Prop) (t : Tab S O) : Prop where
  /-- through the place of a key, the key and its value are read -/
  reads : ∀ k n, k < 2 ^ kw → K k → Placed g t k n → t.keyAt g n = .ok k ∧ ∃ v, t.lookup g k = .ok (some (k, v)) ∧ t.valueAt g n = .ok v
  /-- any number of lookups, insertions, assignments and `shrink_to_fit()`, as long as the number of buckets is the same in the end -/
  calls : ∀ ops t' as k n, (∀ op ∈ ops, valid op ∧ Growing op) → t.run g ops = .ok (t', as) → t'.bucketCount = t.bucketCount →
    k < 2 ^ kw → K k → Placed g t k n → Placed g t' k n

/-! ## Proof -/

section
variable {S O : Type} {g : Cfg S O} {P : Par S O} {a : OverflowOps O} {K : Nat → Prop} {G : O → Prop}

theorem placed_withOv (A : OvAgree a g.ov K G) {t : Tab S O} (hG : G t.ovf) {k : Nat} (hk : K k) (n : Nav) :
    Placed (g.withOv a) t k n ↔ Placed g t k n := by
  unfold Placed
  rw [find_withOv A t hG hk, navEq_withOv A]

theorem Inv.stableArr (A : OvAgree a g.ov K G) (L : Laws g P) (hg : P.grow < 65) {valid : MapOp → Prop}
    (hv : ∀ op, valid op → OpOK P op ∧ op.tame K) {t : Tab S O} {l : List (Nat × Nat)} {m : FMap} (h : Inv g P t l) (ha : Abs l m)
    (hG : G t.ovf) (hm : ∀ k, (m.get k).isSome = true → K k) : StableArrSpec (g.withOv a) P.kw K valid t where
  reads := by
    intro k n hk hK hp
    obtain ⟨h1, h2⟩ := (placed_withOv A hG hK n).mp hp
    rw [keyAt_withOv A, valueAt_withOv A, lookup_withOv A t hG hK]
    rcases h.find L hk with ⟨n', v, g1, g2, _, g4, g5⟩ | ⟨g1, g2, _⟩
    · rw [h1] at g1
      cases g1
      exact ⟨g4, v, by rw [Sem.lookup L ⟨l, h, ha⟩ hk, (ha.get k v).mpr g2]; rfl, g5⟩
    · rw [h1] at g1
      cases g1
      rw [h2] at g2; cases g2
  calls := by
    intro ops t' as k n hops hr hb hk hK hp
    have hs := run_same A L hg ops h ha hm hG (fun op ho => hv op (hops op ho).1)
    rw [hs.1] at hr
    have hp := (placed_withOv A hG hK n).mp hp
    refine (placed_withOv A (hs.2 _ hr) hK n).mpr ?_
    obtain ⟨c, o, full, hl, _⟩ := hp.liveOv h
    have ht := hl.tb_pos L
    have hops' : ∀ op ∈ ops, OpOK P op ∧ Growing op := fun op ho => ⟨(hv _ (hops op ho).1).1, (hops op ho).2⟩
    have m1 := run_mono L hg ops h ha hops' hr
    have e : t'.tb = t.tb := by
      unfold Tab.bucketCount at hb
      rw [if_neg (by omega), if_neg (by omega)] at hb
      exact (Nat.pow_right_inj (by omega)).mp hb
    obtain ⟨c', o', full', g1, g2, g3⟩ := run_keep_ov L hg ops hl hops' hr e
    have := ((hl.placed_ov L hk).mp hp).keep g2 g3
    rw [← e] at this
    exact (g1.placed_ov L hk).mpr this

end

/-! ## C139 -/

/-- **C139** for `separate_chaining_map<..., array_overflow>` -/
theorem C139_separate_array_stable (h : SepOK p hk tr W kw vw) (hf : ArrFits c (tr vw)) {ops : List MapOp}
    (hops : ∀ op ∈ ops, ArrCall c junk (tr vw) hk W kw op) {t : Tab (SepStore KB VB) ArrOv} {as : List Ans}
    (ht : Tab.run (sepMapJunk p hk c junk) (Tab.new (sepMapJunk p hk c junk) kw vw) ops = .ok (t, as)) :
    StableArrSpec (sepMapJunk p hk c junk) kw (NotJunk c junk) (ArrCall c junk (tr vw) hk W kw) t := by
  obtain ⟨knorm, KRep, h1, h2, h3⟩ := h.keys.lawful
  obtain ⟨⟨VRep, h4⟩, h5⟩ := h.vals.lawful
  have hM : 2 ≤ p.maxSize := by have := h.max; unfold SepCfg.maxSize; omega
  obtain ⟨L, hg⟩ := sep_laws (ov := arrIdeal c junk) h1 h2 h4 h3 (h5 vw) (lawful_ideal c junk)
    (fun x => Nat.mod_eq_of_lt (hf.wide x)) hM h.hash h.vw_pos h.vw_le true
  have A := junk_agree c junk (NotJunk c junk) (fun k hk => hk.1) (fun i hi hk => hk.2 i hi rfl)
  have hv : ∀ op, ArrCall c junk (tr vw) hk W kw op → OpOK _ op ∧ op.tame (NotJunk c junk) := fun op hop => ⟨ValidOp.opOK L.hi_lt L.lo_pos
    (fun v hv => hv) (show 0 % 2 ^ c.vs = tr vw 0 by rw [hf.zero]; exact Nat.zero_mod _) hop.1, hop.2⟩
  obtain ⟨t', l, r1, r2, r3, r4⟩ := run_withOv (g := sepTable p hk (arrIdeal c junk)) A L hg ops (fun op hop => hv op (hops op hop))
  have : t' = t := congrArg Prod.fst (Except.ok.inj (r1.symm.trans ht))
  subst t'
  exact r2.stableArr (g := sepTable p hk (arrIdeal c junk)) A L hg hv r3 r4
    (after_keys _ ops _ (by intro k hk; cases hk) (fun op hop => (hops op hop).2))

/-- **C139** for `group_chaining_table<..., array_overflow>` -/
theorem C139_group_array_stable (h : GrpOK hk kw vw) (hf : ArrFits c (fun v => v % 2 ^ vw)) {ops : List MapOp}
    (hops : ∀ op ∈ ops, ArrCall c junk (fun v => v % 2 ^ vw) hk 64 kw op) {t : Tab GrpStore ArrOv} {as : List Ans}
    (ht : Tab.run (grpMapJunk gc hk c junk) (Tab.new (grpMapJunk gc hk c junk) kw vw) ops = .ok (t, as)) :
    StableArrSpec (grpMapJunk gc hk c junk) kw (NotJunk c junk) (ArrCall c junk (fun v => v % 2 ^ vw) hk 64 kw) t := by
  have hS := h.hash
  have h3 : 3 ≤ kw := by cases hk <;> exact hS.1
  obtain ⟨hi1, hi2⟩ := ini_bounds (I := 8) h3 (by omega)
  obtain ⟨h4, h5, h6, h7⟩ := HashKind.hashOK (maxE := 255) (cl := 64) hS hi1 hi2 (by omega) (by omega)
  have L : Laws (grpTable gc hk (arrIdeal c junk)) (grpParArr c gc.strict hk kw vw) :=
    laws_of (lawful_grp gc id).weaken (lawful_ideal c junk) h4 h.vw_pos h.vw_le (by simp [grpTable]) (by simp [grpTable])
      (by simp [grpTable]) (by simp [grpTable]) (fun x => Nat.mod_mod _ _) (fun x => Nat.mod_eq_of_lt (hf.wide x)) (show 2 ≤ kw by omega)
      (by simp [grpTable]) rfl h5 h6
  have A := junk_agree c junk (NotJunk c junk) (fun k hk => hk.1) (fun i hi hk => hk.2 i hi rfl)
  have hv : ∀ op, ArrCall c junk (fun v => v % 2 ^ vw) hk 64 kw op → OpOK (grpParArr c gc.strict hk kw vw) op ∧ op.tame (NotJunk c junk) :=
    fun op hop => ⟨ValidOp.opOK L.hi_lt L.lo_pos (fun v hv => hv) (show 0 % 2 ^ c.vs = 0 % 2 ^ vw by rw [Nat.zero_mod, Nat.zero_mod]) hop.1, hop.2⟩
  obtain ⟨t', l, r1, r2, r3, r4⟩ := run_withOv (g := grpTable gc hk (arrIdeal c junk)) A L h7 ops (fun op hop => hv op (hops op hop))
  have : t' = t := congrArg Prod.fst (Except.ok.inj (r1.symm.trans ht))
  subst t'
  exact r2.stableArr (g := grpTable gc hk (arrIdeal c junk)) A L h7 hv r3 r4
    (after_keys _ ops _ (by intro k hk; cases hk) (fun op hop => (hops op hop).2))

/-- **C139** for debug builds of `separate_chaining_map<..., array_overflow>` -/
theorem C139_separate_debug_array_stable (h : SepDbgTabOK k vops vnull maxBucket hk kbits vbits tr W kw vw) (hf : ArrDbgFits c (tr vw) vw)
    {ops : List MapOp} (hops : ∀ op ∈ ops, DbgValid strat hk W kw vw op ∧ op.tame (NotJunk c junk))
    {t : Tab (SepDbg (DbgB KB) VB) ArrOv} {as : List Ans}
    (ht : Tab.run (dbgMapArr k vops vnull strat maxBucket hk kbits c junk)
      (Tab.new (dbgMapArr k vops vnull strat maxBucket hk kbits c junk) kw vw) ops = .ok (t, as)) :
    StableArrSpec (dbgMapArr k vops vnull strat maxBucket hk kbits c junk) kw (NotJunk c junk)
      (fun op => DbgValid strat hk W kw vw op ∧ op.tame (NotJunk c junk)) t := by
  obtain ⟨KRep, VRep, L0⟩ := h.serial strat true
  have L : Laws (dbgMapIdeal k vops vnull strat maxBucket hk kbits c junk)
      ((sepDbgPar (dbgCfg k vops vnull strat maxBucket hk kbits) hk KRep VRep tr true W kw vw).setOv IdealRep) :=
    L0.laws.setOv (arr_dbg_lawful hf)
  have hv : ∀ op, (DbgValid strat hk W kw vw op ∧ op.tame (NotJunk c junk)) →
      OpOK ((sepDbgPar (dbgCfg k vops vnull strat maxBucket hk kbits) hk KRep VRep tr true W kw vw).setOv IdealRep) op ∧
        op.tame (NotJunk c junk) := by
    rintro op ⟨⟨v1, v2⟩, v3⟩
    refine ⟨ValidOp.opOK (vals := fun v => v < 2 ^ vw) L.hi_lt L.lo_pos (fun v hv => fit_iff.mpr hv)
      (fit_iff.mpr (Nat.two_pow_pos _)) v1 ?_, v3⟩
    by_cases hs : strat = .arbitrary
    · exact .inl (v2 hs)
    · exact .inr (decide_eq_true hs)
  obtain ⟨t', l, h1, h2, h3, h4⟩ := run_withOv (g := dbgMapIdeal k vops vnull strat maxBucket hk kbits c junk)
    (arr_dbg_agree c junk) L L0.grow ops (fun op hop => hv op (hops op hop))
  have : t' = t := congrArg Prod.fst (Except.ok.inj (h1.symm.trans ht))
  subst t'
  exact h2.stableArr (arr_dbg_agree c junk) L L0.grow hv h3 h4
    (after_keys _ ops _ (by intro k hk; cases hk) (fun op hop => (hops op hop).2))

/-- **C139** for debug builds of `group_chaining_table<..., array_overflow>` -/
theorem C139_group_debug_array_stable (h : GrpOK hk kw vw) (hf : ArrDbgFits c (fun v => v % 2 ^ vw) vw)
    {ops : List MapOp} (hops : ∀ op ∈ ops, GrpDbgValid hk kw vw op ∧ op.tame (NotJunk c junk)) {t : Tab GrpDbg ArrOv} {as : List Ans}
    (ht : Tab.run (grpDbgArr gc hk c junk) (Tab.new (grpDbgArr gc hk c junk) kw vw) ops = .ok (t, as)) :
    StableArrSpec (grpDbgArr gc hk c junk) kw (NotJunk c junk) (fun op => GrpDbgValid hk kw vw op ∧ op.tame (NotJunk c junk)) t := by
  obtain ⟨L0, hg, hnew⟩ := h.dbgPar (g := gc)
  have L : Laws ((grpDbg gc hk).setOv (arrDbg c (arrIdeal c junk))) ((grpDbgPar true (grpDbgCfg gc hk) hk kw vw).setOv IdealRep) :=
    L0.setOv (arr_dbg_lawful (tr := fun w v => v % 2 ^ w) hf)
  have hv : ∀ op, (GrpDbgValid hk kw vw op ∧ op.tame (NotJunk c junk)) →
      OpOK ((grpDbgPar true (grpDbgCfg gc hk) hk kw vw).setOv IdealRep) op ∧ op.tame (NotJunk c junk) := by
    rintro op ⟨v1, v3⟩
    exact ⟨ValidOp.opOK (vals := fun v => v < 2 ^ vw) L.hi_lt L.lo_pos (fun v hv => (fit_iff (tr := fun w v => v % 2 ^ w)).mpr hv)
      ((fit_iff (tr := fun w v => v % 2 ^ w)).mpr (Nat.two_pow_pos _)) v1 (.inr rfl), v3⟩
  obtain ⟨t', l, h1, h2, h3, h4⟩ := run_withOv (g := (grpDbg gc hk).setOv (arrDbg c (arrIdeal c junk)))
    (arr_dbg_agree c junk) L hg ops (fun op hop => hv op (hops op hop))
  have : t' = t := congrArg Prod.fst (Except.ok.inj (h1.symm.trans ht))
  subst t'
  exact h2.stableArr (arr_dbg_agree c junk) L hg hv h3 h4
    (after_keys _ ops _ (by intro k hk; cases hk) (fun op hop => (hops op hop).2))

/-! ## Examples -/

/-- where `find` finds a key before and after some calls, and the numbers of buckets -/
def navTraceArr {S : Type} (g : Cfg S ArrOv) (kw vw : Nat) (ops ops' : List MapOp) (k : Nat) : Option (Nav × Nav × Nat × Nat) :=
  match Tab.run g (Tab.new g kw vw) ops with
  | .ok (t, _) => match t.run g ops', t.find g k with
    | .ok (t', _), .ok n => match t'.find g k with
      | .ok n' => some (n, n', t.bucketCount, t'.bucketCount)
      | .error _ => none
    | _, _ => none
  | .error _ => none

/-- Key 360 is first in `array_overflow`; two insertions, a lookup and `shrink_to_fit()` leave it there. -/
example : navTraceArr (sepMapJunk exCfg (.xorshift 16) zeroEx (fun _ => 0)) 10 20 (zeroExOps.take 60)
    [.insert 1001 1, .insert 1013 3, .get 5, .shrink] 360 = some (⟨16, 0⟩, ⟨16, 0⟩, 16, 16) := by decide +kernel

example : ∃ t as, Tab.run (sepMapJunk exCfg (.xorshift 16) zeroEx (fun _ => 0))
    (Tab.new (sepMapJunk exCfg (.xorshift 16) zeroEx (fun _ => 0)) 10 20) (zeroExOps.take 60) = .ok (t, as) ∧
    StableArrSpec (sepMapJunk exCfg (.xorshift 16) zeroEx (fun _ => 0)) 10 (NotJunk zeroEx (fun _ => 0))
      (ArrCall zeroEx (fun _ => 0) (fun v => v % 2 ^ 32) (.xorshift 16) 16 10) t := by
  obtain ⟨t, ht⟩ := C106_separate_array_partial exOK zeroEx_fits _ zeroExTake_ok
  exact ⟨t, _, ht, C139_separate_array_stable exOK zeroEx_fits zeroExTake_ok ht⟩

example : ∃ t as, Tab.run dbgArrEx (Tab.new dbgArrEx 10 20) (zeroExOps.take 60) = .ok (t, as) ∧
    StableArrSpec dbgArrEx 10 (NotJunk zeroEx (fun _ => 0))
      (fun op => DbgValid .arbitrary (.xorshift 16) 16 10 20 op ∧ op.tame (NotJunk zeroEx (fun _ => 0))) t := by
  have hv : ∀ op ∈ zeroExOps.take 60, DbgValid .arbitrary (.xorshift 16) 16 10 20 op ∧ op.tame (NotJunk zeroEx (fun _ => 0)) :=
    fun op hop => dbgArrExOps_valid op (List.mem_of_mem_take hop)
  obtain ⟨_, t, ht⟩ := C113_separate_debug_array_partial dbgExOK zeroEx_dbgFits .arbitrary _ hv
  exact ⟨t, _, ht, C139_separate_debug_array_stable dbgExOK zeroEx_dbgFits hv ht⟩

example : ∃ t as, Tab.run (grpMapJunk grpEx (.xorshift 64) zeroEx (fun _ => 0)) (Tab.new (grpMapJunk grpEx (.xorshift 64) zeroEx (fun _ => 0)) 11 13)
    arrLoopOps = .ok (t, as) ∧ StableArrSpec (grpMapJunk grpEx (.xorshift 64) zeroEx (fun _ => 0)) 11
      (NotJunk zeroEx (fun _ => 0)) (ArrCall zeroEx (fun _ => 0) (fun v => v % 2 ^ 13) (.xorshift 64) 64 11) t := by
  obtain ⟨t, ht⟩ := C106_group_array_partial (gc := grpEx) grpExOK zeroEx_fits13 _ arrLoopOps_ok
  exact ⟨t, _, ht, C139_group_array_stable grpExOK zeroEx_fits13 arrLoopOps_ok ht⟩

example : ∃ t as, Tab.run (grpDbgArr grpEx (.xorshift 64) zeroEx (fun _ => 0)) (Tab.new (grpDbgArr grpEx (.xorshift 64) zeroEx (fun _ => 0)) 11 13)
    arrLoopOps = .ok (t, as) ∧ StableArrSpec (grpDbgArr grpEx (.xorshift 64) zeroEx (fun _ => 0)) 11
      (NotJunk zeroEx (fun _ => 0)) (fun op => GrpDbgValid (.xorshift 64) 11 13 op ∧ op.tame (NotJunk zeroEx (fun _ => 0))) t := by
  have hv : ∀ op ∈ arrLoopOps, GrpDbgValid (.xorshift 64) 11 13 op ∧ op.tame (NotJunk zeroEx (fun _ => 0)) := by decide +kernel
  obtain ⟨_, t, ht⟩ := C113_group_debug_array_partial (g := grpEx) grpExOK zeroEx_dbgFits13 _ hv
  exact ⟨t, _, ht, C139_group_debug_array_stable grpExOK zeroEx_dbgFits13 hv ht⟩

end SC
