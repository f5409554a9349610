import Verif.Table.UpdateOv
import Verif.Props.OverflowLoops
/-!
# Assigning to all elements of a table with `map_overflow`: C136

`UpdateOvSpec` says that the loop visits what a loop without assignments visits, which C52 and C135 describe, and changes exactly these pairs.
-/
namespace SC

variable {KB VB : Type} {p : SepCfg KB VB} {k : DbgCfg KB} {vops : BucketOps VB} {vnull : VB → Bool} {strat : Strategy}
  {maxBucket W kbits vbits kw vw : Nat} {hk : HashKind} {tr : Nat → Nat → Nat} {g : GrpCfg} {c : MapEnv}

theorem FMap.putAll_size {w : Nat → Nat → Nat} : ∀ {l : List (Nat × Nat)} {m : FMap}, (∀ e ∈ l, m.get e.1 ≠ none) →
    (m.putAll w l).size = m.size
  | [], _, _ => rfl
  | e :: l, m, h => by
    have h0 : (m.get e.1).isSome = true := by
      cases hm : m.get e.1 with
      | none => exact absurd hm (h e (by simp))
      | some x => rfl
    rw [FMap.putAll, FMap.putAll_size]
    · simp [FMap.put, h0]
    · intro e' he'
      simp only [FMap.put]
      split
      · simp
      · exact h e' (by simp [he'])

theorem Inv.updateOv {S : Type} {g : Cfg S MapOv} {P : Par S MapOv} (L : Laws g P) (hg : SameMoves g.ov c) (hP : P.RepO = MapRep c)
    (h65 : P.grow < 65) {valid : MapOp → Prop} (hv : ∀ op, valid op → OpOK P op) {f : Nat → Nat → Nat}
    (hA : ∀ k v, P.normO (f k v) = P.norm P.vw (f k v)) {t : Tab S MapOv} {l : List (Nat × Nat)} {m : FMap} (h : Inv g P t l) (ha : Abs l m) :
    UpdateOvSpec g (P.norm P.vw) P.kw valid f m t := by
  rcases id h with ⟨h1, h2, h3, h4, h5, h6, rfl, hst, n, full, h7⟩ | ⟨ct, o, full, hl, hp⟩
  · have hb : t.bucketCount = 0 := by simp [Tab.bucketCount, h5]
    have ho : g.ov.size t.ovf = 0 := L.ovf.size _ _ _ _ h7
    have hbeg : t.beginNav g = .ok Nav.end_ := by
      simp only [Tab.beginNav, hb, Tab.scanUp, ok_bind, Nat.lt_irrefl, if_false, ho, pure_eq_ok]
    have hend := navEq_true (show t.tb < 64 by omega) (invalid_end (g := g) (show t.tb < 64 by omega))
    refine ⟨[], t, ?_, ?_, rfl, rfl, m, by simp, fun _ _ => rfl, fun k hk => Sem.lookup L ⟨_, h, ha⟩ hk, fun ops hops => ?_⟩
    · simp only [Tab.pairs, hbeg, ok_bind, Tab.visit, hend, if_true, pure_eq_ok]
    · simp only [Tab.updateAll, hbeg, ok_bind, Tab.update, hend, if_true, pure_eq_ok]
    · obtain ⟨t', l', q, _⟩ := Tab.run_ok L h65 ops h ha (fun op hop => hv op (hops op hop))
      exact ⟨t', q⟩
  · have hnd := ents_nodup (hl.map_ok L) hl.cok
    have hrep : MapRep c t.ovf (2 ^ t.tb) o full := by rw [← hP]; exact hl.orep
    have ha' := ha.perm hp.symm
    have key : ∃ ol, t.pairs g = .ok (stored (g.hash P.kw) t.tb ct ++ ol) ∧ ol.Sublist (o.map (fun e => e.2)) ∧
        ∃ t', t.updateAll g f = .ok (t', stored (g.hash P.kw) t.tb ct ++ ol) ∧
          Done g P t.tb full t' (m.putAll (fun k v => P.norm P.vw (f k v)) (stored (g.hash P.kw) t.tb ct ++ ol)) := by
      by_cases hpos : g.ov.validPosition t.ovf 0 = true
      · have hw := L.ovf.walk _ _ _ _ hl.orep
        have hfirst : g.ov.firstPosition t.ovf = 0 := by rw [hg.1] at hpos; rw [hg.2.1]; exact hrep.first_zero hpos
        rw [hfirst] at hw
        refine ⟨o.map (fun e => e.2), hl.pairs_over L (fun f hf => visit_over L hl o f 0 (fun e he => he) hw (by simpa using hf)) (by simp),
          List.Sublist.refl _, hl.update_over L hA ha' (fun t1 c1 m1 fuel q1 q2 q3 q4 q5 => ?_) (by simp)⟩
        rw [← q3] at hw
        rw [← q2] at q4
        have := update_over L hA o fuel 0 t1 [] m1 q1 q4 hw (by simpa using q5)
        rw [q2] at this
        exact this
      · have hpos' : g.ov.validPosition t.ovf 0 = false := by simpa using hpos
        refine ⟨[], hl.pairs_over L (fun f hf => visit_over L hl [] f 0 (by simp) hpos' hf) (by simp), List.nil_sublist _,
          hl.update_over L hA ha' (fun t1 c1 m1 fuel q1 q2 q3 q4 q5 => ?_) (by simp)⟩
        have hw : OvWalk g.ov t1.ovf 0 [] := by rw [q3]; exact hpos'
        rw [← q2] at q4
        have := update_over L hA [] fuel 0 t1 o m1 (by rw [List.append_nil]; exact q1) (by rw [List.append_nil]; exact q4) hw q5
        rw [q2] at this
        exact this
    obtain ⟨ol, k1, k2, t', k3, k4, c', o', k5, k6⟩ := key
    have hsub : (stored (g.hash P.kw) t.tb ct ++ ol).Sublist (ents (g.hash P.kw) t.tb ct o) := by
      unfold ents
      exact List.Sublist.append (List.Sublist.refl _) k2
    have hnd' := hnd.sublist (hsub.map Prod.fst)
    generalize stored (g.hash P.kw) t.tb ct ++ ol = vis at k1 k3 k6 hsub hnd'
    rw [← k4] at k6
    have hi : Inv g P t' (ents (g.hash P.kw) t'.tb c' o') := .inr ⟨c', o', full, k5, List.Perm.refl _⟩
    refine ⟨_, t', k1, k3, ?_, by simp [Tab.bucketCount, k4], m.putAll (fun k v => P.norm P.vw (f k v)) vis,
      fun k v hkv => FMap.putAll_mem (w := fun k v => P.norm P.vw (f k v)) hnd' hkv, fun k hk => FMap.putAll_other hk,
      fun k hk => Sem.lookup L ⟨_, hi, k6⟩ hk, fun ops hops => ?_⟩
    · show t'.elems = t.elems
      rw [k5.elems, ← k6.size, hl.elems, ← ha'.size, FMap.putAll_size]
      intro e he hn
      have := (ha'.get e.1 e.2).mpr (hsub.subset he)
      rw [hn] at this
      cases this
    · obtain ⟨t'', l', q, _⟩ := Tab.run_ok L h65 ops hi k6 (fun op hop => hv op (hops op hop))
      exact ⟨t'', q⟩

theorem UpdateOvSpec.fit {S O : Type} {g : Cfg S O} {lo hi : Nat} {valid : MapOp → Prop} {f : Nat → Nat → Nat} {m : FMap} {t : Tab S O}
    (h : UpdateOvSpec g (fitNorm tr vw) kw valid f m t) (hf : ∀ k v, f k v < 2 ^ vw)
    (hv : ∀ op, valid op → ValidOp kw lo hi (fun v => v < 2 ^ vw) op) : UpdateOvSpec g (tr vw) kw valid f m t := by
  obtain ⟨l, t', a1, a2, a3, a4, m', a5, a6, a7, a8⟩ := h
  refine ⟨l, t', a1, a2, a3, a4, m', fun k v hkv => ?_, a6, a7, fun ops hops => ?_⟩
  · rw [a5 k v hkv, fit_eq (hf k v)]
  · obtain ⟨t'', h'⟩ := a8 ops hops
    refine ⟨t'', ?_⟩
    rw [← (FMap.run_congr (f := fitNorm tr vw) (g := tr vw) (fit_eq (Nat.two_pow_pos _)) (fun v hv => fit_eq hv) ops m'
      (fun op hop => hv op (hops op hop))).1]
    exact h'

/-- **C136** for `separate_chaining_map<..., map_overflow>` -/
theorem C136_separate_update (h : SepOK p hk tr W kw vw) (hc : c.good) (hf : OvFits c (tr vw)) {ops : List MapOp}
    (hops : ∀ op ∈ ops, OvValid c (tr vw) hk W kw op) {t : Tab (SepStore KB VB) MapOv} {as : List Ans}
    (ht : Tab.run (sepMapOv p hk c) (Tab.new (sepMapOv p hk c) kw vw) ops = .ok (t, as)) {f : Nat → Nat → Nat}
    (hfit : ∀ k v, f k v % 2 ^ c.vbits = tr vw (f k v)) :
    UpdateOvSpec (sepMapOv p hk c) (tr vw) kw (OvValid c (tr vw) hk W kw) f (FMap.empty.after (tr vw) ops) t := by
  obtain ⟨knorm, KRep, h1, h2, h3⟩ := h.keys.lawful
  obtain ⟨⟨VRep, h4⟩, h5⟩ := h.vals.lawful
  have hM : 2 ≤ p.maxSize := by have := h.max; unfold SepCfg.maxSize; omega
  obtain ⟨L, hg⟩ := sep_laws (ov := mapOverflow c) h1 h2 h4 h3 (h5 vw) (lawful_map c hc)
    (fun x => Nat.mod_eq_of_lt (hf.wide x)) hM h.hash h.vw_pos h.vw_le true
  have hv : ∀ op, OvValid c (tr vw) hk W kw op → OpOK (sepPar p hk KRep VRep (MapRep c) tr c.val true W kw vw) op := fun op hop =>
    ValidOp.opOK L.hi_lt L.lo_pos (fun v hv => hv) (show c.val 0 = tr vw 0 by rw [hf.zero]; exact Nat.zero_mod _) hop
  obtain ⟨t', l, r1, r2, r3⟩ := Tab.run_new L hg ops (fun op hop => hv op (hops op hop))
  have : t' = t := congrArg Prod.fst (Except.ok.inj (r1.symm.trans ht))
  subst t'
  exact r2.updateOv (c := c) L ⟨rfl, rfl, rfl⟩ rfl hg hv hfit r3

/-- **C136** for `group_chaining_table<..., map_overflow>` (the loop starts at the navigator that `begin()` gives, see `Inv.grpBeginOv`) -/
theorem C136_group_update (h : GrpOK hk kw vw) (hc : c.good) (hf : OvFits c (fun v => v % 2 ^ vw)) {ops : List MapOp}
    (hops : ∀ op ∈ ops, OvValid c (fun v => v % 2 ^ vw) hk 64 kw op) {t : Tab GrpStore MapOv} {as : List Ans}
    (ht : Tab.run (grpTable g hk (mapOverflow c)) (Tab.new (grpTable g hk (mapOverflow c)) kw vw) ops = .ok (t, as)) {f : Nat → Nat → Nat}
    (hfit : ∀ k v, f k v % 2 ^ c.vbits = f k v % 2 ^ vw) :
    grpBeginOv g (mapOverflow c) t = t.beginNav (grpTable g hk (mapOverflow c)) ∧
    UpdateOvSpec (grpTable g hk (mapOverflow c)) (fun v => v % 2 ^ vw) kw (OvValid c (fun v => v % 2 ^ vw) hk 64 kw) f
      (FMap.empty.after (fun v => v % 2 ^ vw) ops) t := by
  obtain ⟨L, hg⟩ := grp_ov_laws (gc := g) h hc hf
  have hv : ∀ op, OvValid c (fun v => v % 2 ^ vw) hk 64 kw op → OpOK (grpParOv c g.strict hk kw vw) op := fun op hop =>
    ValidOp.opOK (P := grpParOv c g.strict hk kw vw) L.hi_lt L.lo_pos (fun v hv => hv)
      (show c.val 0 = 0 % 2 ^ vw by rw [Nat.zero_mod]; exact Nat.zero_mod _) hop
  obtain ⟨t', l, h1, h2, ha⟩ := Tab.run_new L hg ops (fun op hop => hv op (hops op hop))
  have : t' = t := congrArg Prod.fst (Except.ok.inj (h1.symm.trans ht))
  subst t'
  exact ⟨h2.grpBeginOv L rfl, h2.updateOv (c := c) L ⟨rfl, rfl, rfl⟩ rfl hg hv hfit ha⟩

/-- **C136** for debug builds of `separate_chaining_map<..., map_overflow>` -/
theorem C136_separate_debug_update (h : SepDbgTabOK k vops vnull maxBucket hk kbits vbits tr W kw vw) (hc : c.good) (hr : c.roomy)
    (hf : DbgFits c (tr vw) vw) {ops : List MapOp} (hops : ∀ op ∈ ops, DbgValid strat hk W kw vw op)
    {t : Tab (SepDbg (DbgB KB) VB) MapOv} {as : List Ans}
    (ht : Tab.run (dbgMapOv k vops vnull strat maxBucket hk kbits c) (Tab.new (dbgMapOv k vops vnull strat maxBucket hk kbits c) kw vw) ops =
      .ok (t, as)) {f : Nat → Nat → Nat} (hfit : ∀ k v, f k v < 2 ^ vw) :
    UpdateOvSpec (dbgMapOv k vops vnull strat maxBucket hk kbits c) (tr vw) kw (DbgValid strat hk W kw vw) f
      (FMap.empty.after (tr vw) ops) t := by
  obtain ⟨KRep, VRep, L0⟩ := h.serial strat false
  obtain ⟨L, hv⟩ := dbg_map_run L0 hc hr hf
  obtain ⟨t', l, h1, h2, ha⟩ := Tab.run_new L L0.grow ops (fun op hop => hv op (hops op hop))
  have ha : Abs l (FMap.empty.after (fitNorm tr vw) ops) := ha
  rw [(FMap.run_congr (f := fitNorm tr vw) (g := tr vw) (fit_eq (Nat.two_pow_pos _)) (fun v hv => fit_eq hv) ops FMap.empty
    (fun op hop => (hops op hop).1)).2] at ha
  have : t' = t := congrArg Prod.fst (Except.ok.inj (h1.symm.trans ht))
  subst t'
  exact UpdateOvSpec.fit (h2.updateOv (c := c) L ⟨rfl, rfl, rfl⟩ rfl L0.grow hv (fun k v => fit_iff.mpr (hfit k v)) ha) hfit
    (fun op hop => hop.1)

/-- **C136** for debug builds of `group_chaining_table<..., map_overflow>` -/
theorem C136_group_debug_update (h : GrpOK hk kw vw) (hc : c.good) (hr : c.roomy) (hf : DbgFits c (fun v => v % 2 ^ vw) vw)
    {ops : List MapOp} (hops : ∀ op ∈ ops, GrpDbgValid hk kw vw op) {t : Tab GrpDbg MapOv} {as : List Ans}
    (ht : Tab.run (grpDbgOv g hk c) (Tab.new (grpDbgOv g hk c) kw vw) ops = .ok (t, as)) {f : Nat → Nat → Nat} (hfit : ∀ k v, f k v < 2 ^ vw) :
    UpdateOvSpec (grpDbgOv g hk c) (fun v => v % 2 ^ vw) kw (GrpDbgValid hk kw vw) f (FMap.empty.after (fun v => v % 2 ^ vw) ops) t := by
  obtain ⟨L0, hg, _⟩ := h.dbgPar (g := g)
  have L : Laws (grpDbgOv g hk c) (grpDbgParMap true c g hk kw vw) := L0.setOv (dbg_ov_lawful (tr := fun w v => v % 2 ^ w) hc hr hf)
  obtain ⟨t', l, h1, h2, ha⟩ := Tab.run_new L hg ops (fun op hop => grp_dbg_valid L (hops op hop))
  have ha : Abs l (FMap.empty.after (fitNorm (fun w v => v % 2 ^ w) vw) ops) := ha
  rw [(FMap.run_congr (f := fitNorm (fun w v => v % 2 ^ w) vw) (g := fun v => v % 2 ^ vw) (fit_eq (Nat.two_pow_pos _)) (fun v hv => fit_eq hv)
    ops FMap.empty hops).2] at ha
  have : t' = t := congrArg Prod.fst (Except.ok.inj (h1.symm.trans ht))
  subst t'
  exact UpdateOvSpec.fit (tr := fun w v => v % 2 ^ w) (h2.updateOv (c := c) L ⟨rfl, rfl, rfl⟩ rfl hg (fun op hop => grp_dbg_valid L hop)
    (fun k v => fit_iff (tr := fun w v => v % 2 ^ w).mpr (hfit k v)) ha) hfit (fun op hop => hop)

/-! ## Examples -/

/-- 59 elements, of which four are in the overflow table: 55 are visited; key 34 is visited and gets its new value, key 850 is in the overflow table and keeps
its value -/
def updOvEx : Option (Nat × Option (Nat × Nat) × Option (Nat × Nat)) :=
  match Tab.run dbgOvEx (Tab.new dbgOvEx 10 20) ovExOps with
  | .ok (t, _) =>
    match t.updateAll dbgOvEx (fun k v => (k + v) % 2 ^ 12) with
    | .ok (t', l) =>
      match t'.lookup dbgOvEx 34, t'.lookup dbgOvEx 850 with
      | .ok r, .ok r' => some (l.length, r, r')
      | _, _ => none
    | .error _ => none
  | .error _ => none

example : updOvEx = some (55, some (34, 41), some (850, 1050)) := by decide +kernel

example : ∃ t as, Tab.run (sepMapOv exCfg (.xorshift 16) ovEx) (Tab.new (sepMapOv exCfg (.xorshift 16) ovEx) 10 20) ovExOps = .ok (t, as) ∧
    UpdateOvSpec (sepMapOv exCfg (.xorshift 16) ovEx) (fun v => v % 2 ^ 32) 10 (OvValid ovEx (fun v => v % 2 ^ 32) (.xorshift 16) 16 10)
      (fun k v => k + 2 * v) (FMap.empty.after (fun v => v % 2 ^ 32) ovExOps) t := by
  obtain ⟨t, as, ht, _⟩ := ovExAfter
  exact ⟨t, as, ht, C136_separate_update exOK ovEx_good ovEx_fits ovExOps_valid ht (fun _ _ => rfl)⟩

example : ∃ t, Tab.run dbgOvEx (Tab.new dbgOvEx 10 20) ovExOps = .ok (t, FMap.empty.run (fun v => v % 2 ^ 32) ovExOps) ∧
    UpdateOvSpec dbgOvEx (fun v => v % 2 ^ 32) 10 (DbgValid .arbitrary (.xorshift 16) 16 10 20) (fun k v => (k + v) % 2 ^ 12)
      (FMap.empty.after (fun v => v % 2 ^ 32) ovExOps) t := by
  obtain ⟨_, t, ht⟩ := C107_separate_debug_overflow dbgExOK ovEx_good ovEx_roomy ovEx_dbgFits .arbitrary ovExOps dbgOvExOps_valid
  exact ⟨t, ht, C136_separate_debug_update dbgExOK ovEx_good ovEx_roomy ovEx_dbgFits dbgOvExOps_valid ht
    (fun _ _ => Nat.lt_trans (Nat.mod_lt _ (by decide)) (by decide))⟩

/-- with elements in the overflow table -/
example : ∃ ops, ∃ t : Tab GrpDbg MapOv, t.ovf.items ≠ [] ∧ UpdateOvSpec grpDbgOvEx (fun v => v % 2 ^ 13) 11 (GrpDbgValid (.xorshift 64) 11 13)
    (fun k v => (k + v) % 2 ^ 12) (FMap.empty.after (fun v => v % 2 ^ 13) ops) t := by
  obtain ⟨ops, hv, t, as, ht, h0⟩ := dbg_spill_ex
  exact ⟨ops, t, h0, C136_group_debug_update grpExOK ovEx_good ovEx_roomy ovEx_dbgFits_grp hv ht
    (fun _ _ => Nat.lt_trans (Nat.mod_lt _ (by decide)) (by decide))⟩

example : ∃ ops, ∃ t : Tab GrpStore MapOv, t.ovf.items ≠ [] ∧ UpdateOvSpec (grpTable grpEx (.xorshift 64) (mapOverflow ovEx)) (fun v => v % 2 ^ 13) 11
    (OvValid ovEx (fun v => v % 2 ^ 13) (.xorshift 64) 64 11) (fun k v => (k + v) % 2 ^ 12) (FMap.empty.after (fun v => v % 2 ^ 13) ops) t := by
  obtain ⟨ops, hv, t, as, ht, h0⟩ := map_spill_ex
  refine ⟨ops, t, h0, (C136_group_update grpExOK ovEx_good ovEx_fits_grp hv ht (fun a b => ?_)).2⟩
  have h1 : (a + b) % 2 ^ 12 < 2 ^ 12 := Nat.mod_lt _ (by decide)
  show (a + b) % 2 ^ 12 % 2 ^ 32 = (a + b) % 2 ^ 12 % 2 ^ 13
  rw [Nat.mod_eq_of_lt (Nat.lt_trans h1 (by decide)), Nat.mod_eq_of_lt (Nat.lt_trans h1 (by decide))]

end SC
