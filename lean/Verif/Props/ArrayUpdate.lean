import Verif.Props.ArrayLoops
import Verif.Props.UpdateOv
/-!
# Assigning to all elements of a table with `array_overflow`: C138

The histories are those of C106 and C113, as in C137.
-/
namespace SC

variable {KB VB : Type} {p : SepCfg KB VB} {k : DbgCfg KB} {vops : BucketOps VB} {vnull : VB → Bool} {strat : Strategy}
  {maxBucket W kbits vbits kw vw : Nat} {hk : HashKind} {tr : Nat → Nat → Nat} {gc : GrpCfg} {c : ArrEnv} {junk : Nat → Nat}

/-! ## Specification -/

/-- The loop that assigns `f(key, value)` to every element visits every pair of `m` once.  Afterwards every value is the new one, sizes are the same, `find` answers
accordingly for keys with `K`, and so do all further calls. -/
def UpdateArrSpec {S O : Type} (g : Cfg S O) (tr : Nat → Nat) (kw : Nat) (K : Nat → Prop) (valid : MapOp → Prop) (f : Nat → Nat → Nat) (m : FMap)
    (t : Tab S O) : Prop :=
  ∃ l t', t.updateAll g f = .ok (t', l) ∧ Lists m l ∧ t'.size = t.size ∧ t'.bucketCount = t.bucketCount ∧
    ∃ m' : FMap, (∀ k, m'.get k = (m.get k).map (fun v => tr (f k v))) ∧ m'.size = m.size ∧
      (∀ k < 2 ^ kw, K k → t'.lookup g k = .ok ((m'.get k).map (fun v => (k, v)))) ∧
      ∀ ops, (∀ op ∈ ops, valid op) → ∃ t'', Tab.run g t' ops = .ok (t'', m'.run tr ops)

/-! ## Proof -/

section
variable {S O : Type} {g : Cfg S O} {P : Par S O} {a : OverflowOps O} {K : Nat → Prop} {G : O → Prop}

theorem update_withOv (A : OvAgree a g.ov K G) {f : Nat → Nat → Nat} : ∀ (fuel : Nat) (t : Tab S O) (n : Nav), G t.ovf →
    Same (fun r => G r.1.ovf) (Tab.update (g.withOv a) f fuel t n) (Tab.update g f fuel t n) := by
  intro fuel
  induction fuel with
  | zero => intro t n _; exact ⟨rfl, fun r hr => by cases hr⟩
  | succ fuel ih =>
    intro t n hG
    simp only [Tab.update, navEq_withOv A, keyAt_withOv A, valueAt_withOv A]
    refine (Same.triv _).bind fun e _ _ => ?_
    split
    · exact Same.ok (Q := fun r : Tab S O × List (Nat × Nat) => G r.1.ovf) hG
    · refine (Same.triv _).bind fun k _ _ => (Same.triv _).bind fun v _ _ => (writeValue_withOv A t hG n (f k v)).bind fun t1 ht1 _ => ?_
      rw [next_withOv A]
      refine (Same.triv _).bind fun n' _ _ => (ih t1 n' ht1).bind fun r hr _ => ?_
      exact Same.ok (Q := fun r : Tab S O × List (Nat × Nat) => G r.1.ovf) hr

theorem lookup_withOv (A : OvAgree a g.ov K G) (t : Tab S O) (hG : G t.ovf) {k : Nat} (hk : K k) :
    t.lookup (g.withOv a) k = t.lookup g k := by
  simp only [Tab.lookup, find_withOv A t hG hk, navEq_withOv A, keyAt_withOv A, valueAt_withOv A]

/-- all keys of a map that tame calls have built are tame -/
theorem after_keys (tr : Nat → Nat) : ∀ (ops : List MapOp) (m : FMap), (∀ k, (m.get k).isSome = true → K k) → (∀ op ∈ ops, op.tame K) →
    ∀ k, ((m.after tr ops).get k).isSome = true → K k
  | [], _, hm, _ => hm
  | op :: ops, m, hm, ho => after_keys tr ops _ (tame_keys hm tr (ho op (by simp))) (fun x hx => ho x (by simp [hx]))

/-- the loop if it starts at the first position of the overflow table -/
theorem Inv.update_first (L : Laws g P) (h0 : ∀ o, g.ov.firstPosition o = 0) {f : Nat → Nat → Nat}
    (hA : ∀ k v, P.normO (f k v) = P.norm P.vw (f k v)) {t : Tab S O} {l : List (Nat × Nat)} {m : FMap} (h : Inv g P t l) (ha : Abs l m) :
    ∃ vis t' l', t.updateAll g f = .ok (t', vis) ∧ Lists m vis ∧ t'.bucketCount = t.bucketCount ∧ Inv g P t' l' ∧
      Abs l' (m.putAll (fun k v => P.norm P.vw (f k v)) vis) := by
  rcases id h with ⟨h1, h2, h3, h4, h5, h6, rfl, hst, n, full, h7⟩ | ⟨ct, o, full, hl, hp⟩
  · have hb : t.bucketCount = 0 := by simp [Tab.bucketCount, h5]
    have ho : g.ov.size t.ovf = 0 := L.ovf.size _ _ _ _ h7
    have hbeg : t.beginNav g = .ok Nav.end_ := by
      simp only [Tab.beginNav, hb, Tab.scanUp, ok_bind, Nat.lt_irrefl, if_false, ho, pure_eq_ok]
    have hend := navEq_true (show t.tb < 64 by omega) (invalid_end (g := g) (show t.tb < 64 by omega))
    refine ⟨[], t, [], ?_, ⟨by simp, fun k v => (ha.get k v).symm⟩, rfl, h, ha⟩
    simp only [Tab.updateAll, hbeg, ok_bind, Tab.update, hend, if_true, pure_eq_ok]
  · have hnd := ents_nodup (hl.map_ok L) hl.cok
    have ha' := ha.perm hp.symm
    have hw := L.ovf.walk _ _ _ _ hl.orep
    rw [h0] at hw
    obtain ⟨t', k3, k4, c', o', k5, k6⟩ := hl.update_over L hA ha' (ol := o.map (fun e => e.2)) (fun t1 c1 m1 fuel q1 q2 q3 q4 q5 => by
      rw [← q3] at hw
      rw [← q2] at q4
      have := SC.update_over L hA o fuel 0 t1 [] m1 q1 q4 hw (by simpa using q5)
      rw [q2] at this
      exact this) (by simp)
    have e : stored (g.hash P.kw) t.tb ct ++ o.map (fun e => e.2) = ents (g.hash P.kw) t.tb ct o := rfl
    rw [e] at k3 k6
    have hvis : Lists m (ents (g.hash P.kw) t.tb ct o) := ⟨hnd, fun k v => (ha'.get k v).symm⟩
    generalize ents (g.hash P.kw) t.tb ct o = vis at k3 k6 hvis
    rw [← k4] at k6
    exact ⟨_, t', _, k3, hvis, by simp [Tab.bucketCount, k4], .inr ⟨c', o', full, k5, List.Perm.refl _⟩, k6⟩

theorem Inv.updateArr (A : OvAgree a g.ov K G) (L : Laws g P) (h0 : ∀ o, g.ov.firstPosition o = 0) (h65 : P.grow < 65) {valid : MapOp → Prop}
    (hv : ∀ op, valid op → OpOK P op ∧ op.tame K) {f : Nat → Nat → Nat} (hA : ∀ k v, P.normO (f k v) = P.norm P.vw (f k v)) {t : Tab S O}
    {l : List (Nat × Nat)} {m : FMap} (h : Inv g P t l) (ha : Abs l m) (hG : G t.ovf) (hm : ∀ k, (m.get k).isSome = true → K k) :
    UpdateArrSpec (g.withOv a) (P.norm P.vw) P.kw K valid f m t := by
  obtain ⟨vis, t', l', q1, q2, q3, q4, q5⟩ := h.update_first L h0 hA ha
  have hs : Same (fun r => G r.1.ovf) (t.updateAll (g.withOv a) f) (t.updateAll g f) := by
    unfold Tab.updateAll
    rw [beginNav_withOv A]
    exact (Same.triv _).bind fun n _ _ => update_withOv A _ t n hG
  have hG' : G t'.ovf := hs.2 _ q1
  have hget : ∀ k, (m.putAll (fun k v => P.norm P.vw (f k v)) vis).get k = (m.get k).map (fun v => P.norm P.vw (f k v)) := by
    intro k
    cases hk : m.get k with
    | none =>
      rw [FMap.putAll_other, hk]
      · rfl
      · intro hmem
        obtain ⟨⟨k', v⟩, he, rfl⟩ := List.mem_map.mp hmem
        rw [(q2.2 k' v).mp he] at hk
        cases hk
    | some v => exact FMap.putAll_mem (w := fun k v => P.norm P.vw (f k v)) q2.1 ((q2.2 k v).mpr hk)
  have hsize : (m.putAll (fun k v => P.norm P.vw (f k v)) vis).size = m.size :=
    FMap.putAll_size fun e he hn => by rw [(q2.2 e.1 e.2).mp he] at hn; cases hn
  refine ⟨vis, t', hs.1.trans q1, q2, ?_, q3, _, hget, hsize, fun k hk hK => ?_, fun ops hops => ?_⟩
  · exact (Inv.size q4).trans (q5.size.symm.trans (hsize.trans (ha.size.trans (Inv.size h).symm)))
  · rw [lookup_withOv A t' hG' hK]
    exact Sem.lookup L ⟨_, q4, q5⟩ hk
  · obtain ⟨t'', l'', r1, _⟩ := Tab.run_ok L h65 ops q4 q5 (fun op hop => (hv op (hops op hop)).1)
    refine ⟨t'', (run_same A L h65 ops q4 q5 (fun k hk => hm k ?_) hG' (fun op hop => hv op (hops op hop))).1.trans r1⟩
    rw [hget] at hk
    simpa using hk

end

theorem UpdateArrSpec.fit {S O : Type} {g : Cfg S O} {lo hi : Nat} {K : Nat → Prop} {valid : MapOp → Prop} {f : Nat → Nat → Nat} {m : FMap}
    {t : Tab S O} (h : UpdateArrSpec g (fitNorm tr vw) kw K valid f m t) (hf : ∀ k v, f k v < 2 ^ vw)
    (hv : ∀ op, valid op → ValidOp kw lo hi (fun v => v < 2 ^ vw) op) : UpdateArrSpec g (tr vw) kw K valid f m t := by
  obtain ⟨l, t', a1, a2, a3, a4, m', a5, a6, a7, a8⟩ := h
  refine ⟨l, t', a1, a2, a3, a4, m', fun k => ?_, a6, a7, fun ops hops => ?_⟩
  · rw [a5 k]
    exact congrArg (fun F => (m.get k).map F) (funext fun v => fit_eq (hf k v))
  · obtain ⟨t'', h'⟩ := a8 ops hops
    refine ⟨t'', ?_⟩
    rw [← (FMap.run_congr (f := fitNorm tr vw) (g := tr vw) (fit_eq (Nat.two_pow_pos _)) (fun v hv => fit_eq hv) ops m'
      (fun op hop => hv op (hops op hop))).1]
    exact h'

/-! ## C138 -/

/-- **C138** for `separate_chaining_map<..., array_overflow>` -/
theorem C138_separate_array_update (h : SepOK p hk tr W kw vw) (hf : ArrFits c (tr vw)) {ops : List MapOp}
    (hops : ∀ op ∈ ops, ArrCall c junk (tr vw) hk W kw op) {t : Tab (SepStore KB VB) ArrOv} {as : List Ans}
    (ht : Tab.run (sepMapJunk p hk c junk) (Tab.new (sepMapJunk p hk c junk) kw vw) ops = .ok (t, as)) {f : Nat → Nat → Nat}
    (hfit : ∀ k v, f k v % 2 ^ c.vs = tr vw (f k v)) :
    UpdateArrSpec (sepMapJunk p hk c junk) (tr vw) kw (NotJunk c junk) (ArrCall c junk (tr vw) hk W kw) f (FMap.empty.after (tr vw) ops) t := by
  obtain ⟨knorm, KRep, h1, h2, h3⟩ := h.keys.lawful
  obtain ⟨⟨VRep, h4⟩, h5⟩ := h.vals.lawful
  have hM : 2 ≤ p.maxSize := by have := h.max; unfold SepCfg.maxSize; omega
  obtain ⟨L, hg⟩ := sep_laws (ov := arrIdeal c junk) h1 h2 h4 h3 (h5 vw) (lawful_ideal c junk)
    (fun x => Nat.mod_eq_of_lt (hf.wide x)) hM h.hash h.vw_pos h.vw_le true
  have A := junk_agree c junk (NotJunk c junk) (fun k hk => hk.1) (fun i hi hk => hk.2 i hi rfl)
  have hv : ∀ op, ArrCall c junk (tr vw) hk W kw op → OpOK _ op ∧ op.tame (NotJunk c junk) := fun op hop => ⟨ValidOp.opOK L.hi_lt L.lo_pos
    (fun v hv => hv) (show 0 % 2 ^ c.vs = tr vw 0 by rw [hf.zero]; exact Nat.zero_mod _) hop.1, hop.2⟩
  obtain ⟨t', l, r1, r2, r3, r4⟩ := run_withOv (g := sepTable p hk (arrIdeal c junk)) A L hg ops (fun op hop => hv op (hops op hop))
  have : t' = t := congrArg Prod.fst (Except.ok.inj (r1.symm.trans ht))
  subst t'
  exact r2.updateArr (g := sepTable p hk (arrIdeal c junk)) A L (fun _ => rfl) hg hv hfit r3 r4
    (after_keys _ ops _ (by intro k hk; cases hk) (fun op hop => (hops op hop).2))

/-- **C138** for `group_chaining_table<..., array_overflow>` (`begin()` gives this navigator, see C137) -/
theorem C138_group_array_update (h : GrpOK hk kw vw) (hf : ArrFits c (fun v => v % 2 ^ vw)) {ops : List MapOp}
    (hops : ∀ op ∈ ops, ArrCall c junk (fun v => v % 2 ^ vw) hk 64 kw op) {t : Tab GrpStore ArrOv} {as : List Ans}
    (ht : Tab.run (grpMapJunk gc hk c junk) (Tab.new (grpMapJunk gc hk c junk) kw vw) ops = .ok (t, as)) {f : Nat → Nat → Nat}
    (hfit : ∀ k v, f k v % 2 ^ c.vs = f k v % 2 ^ vw) :
    grpBeginOv gc (arrJunk c junk) t = t.beginNav (grpMapJunk gc hk c junk) ∧
    UpdateArrSpec (grpMapJunk gc hk c junk) (fun v => v % 2 ^ vw) kw (NotJunk c junk) (ArrCall c junk (fun v => v % 2 ^ vw) hk 64 kw) f
      (FMap.empty.after (fun v => v % 2 ^ vw) ops) t := by
  have hS := h.hash
  have h3 : 3 ≤ kw := by cases hk <;> exact hS.1
  obtain ⟨hi1, hi2⟩ := ini_bounds (I := 8) h3 (by omega)
  obtain ⟨h4, h5, h6, h7⟩ := HashKind.hashOK (maxE := 255) (cl := 64) hS hi1 hi2 (by omega) (by omega)
  have L : Laws (grpTable gc hk (arrIdeal c junk)) (grpParArr c gc.strict hk kw vw) :=
    laws_of (lawful_grp gc id).weaken (lawful_ideal c junk) h4 h.vw_pos h.vw_le (by simp [grpTable]) (by simp [grpTable])
      (by simp [grpTable]) (by simp [grpTable]) (fun x => Nat.mod_mod _ _) (fun x => Nat.mod_eq_of_lt (hf.wide x)) (show 2 ≤ kw by omega)
      (by simp [grpTable]) rfl h5 h6
  have A := junk_agree c junk (NotJunk c junk) (fun k hk => hk.1) (fun i hi hk => hk.2 i hi rfl)
  have hv : ∀ op, ArrCall c junk (fun v => v % 2 ^ vw) hk 64 kw op → OpOK (grpParArr c gc.strict hk kw vw) op ∧ op.tame (NotJunk c junk) :=
    fun op hop => ⟨ValidOp.opOK L.hi_lt L.lo_pos (fun v hv => hv) (show 0 % 2 ^ c.vs = 0 % 2 ^ vw by rw [Nat.zero_mod, Nat.zero_mod]) hop.1, hop.2⟩
  obtain ⟨t', l, r1, r2, r3, r4⟩ := run_withOv (g := grpTable gc hk (arrIdeal c junk)) A L h7 ops (fun op hop => hv op (hops op hop))
  have : t' = t := congrArg Prod.fst (Except.ok.inj (r1.symm.trans ht))
  subst t'
  refine ⟨(show grpBeginOv gc (arrIdeal c junk) t = _ from (r2.grpBeginOv L rfl).trans
    (beginNav_withOv (g := grpTable gc hk (arrIdeal c junk)) A t).symm), ?_⟩
  exact r2.updateArr (g := grpTable gc hk (arrIdeal c junk)) A L (fun _ => rfl) h7 hv hfit r3 r4
    (after_keys _ ops _ (by intro k hk; cases hk) (fun op hop => (hops op hop).2))

/-- **C138** for debug builds of `separate_chaining_map<..., array_overflow>` -/
theorem C138_separate_debug_array_update (h : SepDbgTabOK k vops vnull maxBucket hk kbits vbits tr W kw vw) (hf : ArrDbgFits c (tr vw) vw)
    {ops : List MapOp} (hops : ∀ op ∈ ops, DbgValid strat hk W kw vw op ∧ op.tame (NotJunk c junk))
    {t : Tab (SepDbg (DbgB KB) VB) ArrOv} {as : List Ans}
    (ht : Tab.run (dbgMapArr k vops vnull strat maxBucket hk kbits c junk)
      (Tab.new (dbgMapArr k vops vnull strat maxBucket hk kbits c junk) kw vw) ops = .ok (t, as)) {f : Nat → Nat → Nat}
    (hfit : ∀ k v, f k v < 2 ^ vw) :
    UpdateArrSpec (dbgMapArr k vops vnull strat maxBucket hk kbits c junk) (tr vw) kw (NotJunk c junk)
      (fun op => DbgValid strat hk W kw vw op ∧ op.tame (NotJunk c junk)) f (FMap.empty.after (tr vw) ops) t := by
  obtain ⟨KRep, VRep, L0⟩ := h.serial strat true
  have L : Laws (dbgMapIdeal k vops vnull strat maxBucket hk kbits c junk)
      ((sepDbgPar (dbgCfg k vops vnull strat maxBucket hk kbits) hk KRep VRep tr true W kw vw).setOv IdealRep) :=
    L0.laws.setOv (arr_dbg_lawful hf)
  have hv : ∀ op, (DbgValid strat hk W kw vw op ∧ op.tame (NotJunk c junk)) →
      OpOK ((sepDbgPar (dbgCfg k vops vnull strat maxBucket hk kbits) hk KRep VRep tr true W kw vw).setOv IdealRep) op ∧
        op.tame (NotJunk c junk) := by
    rintro op ⟨⟨v1, v2⟩, v3⟩
    refine ⟨ValidOp.opOK (vals := fun v => v < 2 ^ vw) L.hi_lt L.lo_pos (fun v hv => fit_iff.mpr hv)
      (fit_iff.mpr (Nat.two_pow_pos _)) v1 ?_, v3⟩
    by_cases hs : strat = .arbitrary
    · exact .inl (v2 hs)
    · exact .inr (decide_eq_true hs)
  obtain ⟨t', l, h1, h2, h3, h4⟩ := run_withOv (g := dbgMapIdeal k vops vnull strat maxBucket hk kbits c junk)
    (arr_dbg_agree c junk) L L0.grow ops (fun op hop => hv op (hops op hop))
  have h3 : Abs l (FMap.empty.after (fitNorm tr vw) ops) := h3
  rw [(FMap.run_congr (f := fitNorm tr vw) (g := tr vw) (fit_eq (Nat.two_pow_pos _)) (fun v hv => fit_eq hv) ops FMap.empty
    (fun op hop => (hops op hop).1.1)).2] at h3
  have : t' = t := congrArg Prod.fst (Except.ok.inj (h1.symm.trans ht))
  subst t'
  exact UpdateArrSpec.fit (h2.updateArr (arr_dbg_agree c junk) L (fun _ => rfl) L0.grow hv (fun k v => fit_iff.mpr (hfit k v)) h3 h4
    (after_keys _ ops _ (by intro k hk; cases hk) (fun op hop => (hops op hop).2))) hfit (fun op hop => hop.1.1)

/-- **C138** for debug builds of `group_chaining_table<..., array_overflow>` -/
theorem C138_group_debug_array_update (h : GrpOK hk kw vw) (hf : ArrDbgFits c (fun v => v % 2 ^ vw) vw)
    {ops : List MapOp} (hops : ∀ op ∈ ops, GrpDbgValid hk kw vw op ∧ op.tame (NotJunk c junk)) {t : Tab GrpDbg ArrOv} {as : List Ans}
    (ht : Tab.run (grpDbgArr gc hk c junk) (Tab.new (grpDbgArr gc hk c junk) kw vw) ops = .ok (t, as)) {f : Nat → Nat → Nat}
    (hfit : ∀ k v, f k v < 2 ^ vw) :
    UpdateArrSpec (grpDbgArr gc hk c junk) (fun v => v % 2 ^ vw) kw (NotJunk c junk)
      (fun op => GrpDbgValid hk kw vw op ∧ op.tame (NotJunk c junk)) f (FMap.empty.after (fun v => v % 2 ^ vw) ops) t := by
  obtain ⟨L0, hg, hnew⟩ := h.dbgPar (g := gc)
  have L : Laws ((grpDbg gc hk).setOv (arrDbg c (arrIdeal c junk))) ((grpDbgPar true (grpDbgCfg gc hk) hk kw vw).setOv IdealRep) :=
    L0.setOv (arr_dbg_lawful (tr := fun w v => v % 2 ^ w) hf)
  have hv : ∀ op, (GrpDbgValid hk kw vw op ∧ op.tame (NotJunk c junk)) →
      OpOK ((grpDbgPar true (grpDbgCfg gc hk) hk kw vw).setOv IdealRep) op ∧ op.tame (NotJunk c junk) := by
    rintro op ⟨v1, v3⟩
    exact ⟨ValidOp.opOK (vals := fun v => v < 2 ^ vw) L.hi_lt L.lo_pos (fun v hv => (fit_iff (tr := fun w v => v % 2 ^ w)).mpr hv)
      ((fit_iff (tr := fun w v => v % 2 ^ w)).mpr (Nat.two_pow_pos _)) v1 (.inr rfl), v3⟩
  obtain ⟨t', l, h1, h2, h3, h4⟩ := run_withOv (g := (grpDbg gc hk).setOv (arrDbg c (arrIdeal c junk)))
    (arr_dbg_agree c junk) L hg ops (fun op hop => hv op (hops op hop))
  have h3 : Abs l (FMap.empty.after (fitNorm (fun w v => v % 2 ^ w) vw) ops) := h3
  rw [(FMap.run_congr (f := fitNorm (fun w v => v % 2 ^ w) vw) (g := fun v => v % 2 ^ vw) (fit_eq (Nat.two_pow_pos _))
    (fun v hv => fit_eq hv) ops FMap.empty (fun op hop => (hops op hop).1)).2] at h3
  have : t' = t := congrArg Prod.fst (Except.ok.inj (h1.symm.trans ht))
  subst t'
  exact UpdateArrSpec.fit (tr := fun w v => v % 2 ^ w) (h2.updateArr (arr_dbg_agree c junk) L (fun _ => rfl) hg hv
    (fun k v => (fit_iff (tr := fun w v => v % 2 ^ w)).mpr (hfit k v)) h3 h4
    (after_keys _ ops _ (by intro k hk; cases hk) (fun op hop => (hops op hop).2))) hfit (fun op hop => hop.1)

/-! ## Examples -/

example : ∃ t as, Tab.run (sepMapJunk exCfg (.xorshift 16) zeroEx (fun _ => 0))
    (Tab.new (sepMapJunk exCfg (.xorshift 16) zeroEx (fun _ => 0)) 10 20) (zeroExOps.take 60) = .ok (t, as) ∧
    UpdateArrSpec (sepMapJunk exCfg (.xorshift 16) zeroEx (fun _ => 0)) (fun v => v % 2 ^ 32) 10 (NotJunk zeroEx (fun _ => 0))
      (ArrCall zeroEx (fun _ => 0) (fun v => v % 2 ^ 32) (.xorshift 16) 16 10) (fun k v => k + 2 * v)
      (FMap.empty.after (fun v => v % 2 ^ 32) (zeroExOps.take 60)) t := by
  obtain ⟨t, ht⟩ := C106_separate_array_partial exOK zeroEx_fits _ zeroExTake_ok
  exact ⟨t, _, ht, C138_separate_array_update exOK zeroEx_fits zeroExTake_ok ht (fun _ _ => rfl)⟩

example : ∃ t as, Tab.run dbgArrEx (Tab.new dbgArrEx 10 20) (zeroExOps.take 60) = .ok (t, as) ∧
    UpdateArrSpec dbgArrEx (fun v => v % 2 ^ 32) 10 (NotJunk zeroEx (fun _ => 0))
      (fun op => DbgValid .arbitrary (.xorshift 16) 16 10 20 op ∧ op.tame (NotJunk zeroEx (fun _ => 0))) (fun k v => (k + v) % 2 ^ 12)
      (FMap.empty.after (fun v => v % 2 ^ 32) (zeroExOps.take 60)) t := by
  have hv : ∀ op ∈ zeroExOps.take 60, DbgValid .arbitrary (.xorshift 16) 16 10 20 op ∧ op.tame (NotJunk zeroEx (fun _ => 0)) :=
    fun op hop => dbgArrExOps_valid op (List.mem_of_mem_take hop)
  obtain ⟨_, t, ht⟩ := C113_separate_debug_array_partial dbgExOK zeroEx_dbgFits .arbitrary _ hv
  exact ⟨t, _, ht, C138_separate_debug_array_update dbgExOK zeroEx_dbgFits hv ht
    (fun _ _ => Nat.lt_trans (Nat.mod_lt _ (by decide)) (by decide))⟩

example : ∃ t as, Tab.run (grpMapJunk grpEx (.xorshift 64) zeroEx (fun _ => 0)) (Tab.new (grpMapJunk grpEx (.xorshift 64) zeroEx (fun _ => 0)) 11 13)
    arrLoopOps = .ok (t, as) ∧ UpdateArrSpec (grpMapJunk grpEx (.xorshift 64) zeroEx (fun _ => 0)) (fun v => v % 2 ^ 13) 11
      (NotJunk zeroEx (fun _ => 0)) (ArrCall zeroEx (fun _ => 0) (fun v => v % 2 ^ 13) (.xorshift 64) 64 11) (fun k v => (k + v) % 2 ^ 13)
      (FMap.empty.after (fun v => v % 2 ^ 13) arrLoopOps) t := by
  obtain ⟨t, ht⟩ := C106_group_array_partial (gc := grpEx) grpExOK zeroEx_fits13 _ arrLoopOps_ok
  exact ⟨t, _, ht, (C138_group_array_update grpExOK zeroEx_fits13 arrLoopOps_ok ht (fun k v => by
    show (k + v) % 2 ^ 13 % 2 ^ 32 = (k + v) % 2 ^ 13 % 2 ^ 13
    rw [Nat.mod_mod]
    exact Nat.mod_eq_of_lt (Nat.lt_trans (Nat.mod_lt _ (by decide)) (by decide)))).2⟩

example : ∃ t as, Tab.run (grpDbgArr grpEx (.xorshift 64) zeroEx (fun _ => 0)) (Tab.new (grpDbgArr grpEx (.xorshift 64) zeroEx (fun _ => 0)) 11 13)
    arrLoopOps = .ok (t, as) ∧ UpdateArrSpec (grpDbgArr grpEx (.xorshift 64) zeroEx (fun _ => 0)) (fun v => v % 2 ^ 13) 11
      (NotJunk zeroEx (fun _ => 0)) (fun op => GrpDbgValid (.xorshift 64) 11 13 op ∧ op.tame (NotJunk zeroEx (fun _ => 0)))
      (fun k v => (k + v) % 2 ^ 13) (FMap.empty.after (fun v => v % 2 ^ 13) arrLoopOps) t := by
  have hv : ∀ op ∈ arrLoopOps, GrpDbgValid (.xorshift 64) 11 13 op ∧ op.tame (NotJunk zeroEx (fun _ => 0)) := by decide +kernel
  obtain ⟨_, t, ht⟩ := C113_group_debug_array_partial (g := grpEx) grpExOK zeroEx_dbgFits13 _ hv
  exact ⟨t, _, ht, C138_group_debug_array_update grpExOK zeroEx_dbgFits13 hv ht (fun _ _ => Nat.mod_lt _ (by decide))⟩

end SC
