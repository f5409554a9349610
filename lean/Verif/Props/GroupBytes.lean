import Verif.Group.Determinate
import Verif.Props.Format
/-!
# Properties of group tables that have not read a file: C98
-/
namespace SC

variable {c c' : GrpCfg} {hk : HashKind} {kw vw : Nat}

/-- the group table with the storage functions `grpRefOps` -/
def grpRef (c : GrpCfg) (hk : HashKind) : Cfg GrpStore Unit := { grpMap c hk with ops := grpRefOps c }

theorem lawful_grpRef (c : GrpCfg) : LawfulStore (grpRefOps c) (fun w v => v % 2 ^ w) (GrpRep true) 255 64 64 :=
  have L := lawful_grp (sp := true) c (fun _ => rfl)
  { L with
    alloc := by
      intro d
      refine ⟨_, rfl, fun hd hD => ?_⟩
      obtain ⟨s, h1, h2⟩ := L.alloc d
      rw [if_pos ⟨hd.qw_le_W, hd.vw_le⟩]
      cases h1
      exact h2 hd hD }

theorem GrpOK.coveredRef (h : GrpOK hk kw vw) :
    Covered (grpRef c hk) (fun v => v % 2 ^ vw) (hk.lo kw 64) (hk.width kw - 1) kw vw (grpPar true hk kw vw) := by
  have hS := h.hash
  have h3 : 3 ≤ kw := by cases hk <;> exact hS.1
  obtain ⟨hi1, hi2⟩ := ini_bounds (I := 8) h3 (by omega)
  obtain ⟨h4, h5, h6, h7⟩ := HashKind.hashOK (maxE := 255) (cl := 64) hS hi1 hi2 (by omega) (by omega)
  refine ⟨laws_of (lawful_grpRef c).weaken (lawful_dummy _) h4 h.vw_pos h.vw_le (by simp [grpRef, grpMap]) (by simp [grpRef, grpMap])
    (by simp [grpRef, grpMap]) (by simp [grpRef, grpMap]) (fun x => Nat.mod_mod _ _) (fun x => Nat.mod_mod _ _) (show 2 ≤ kw by omega)
    (by simp [grpRef, grpMap]) rfl h5 h6, h7, ?_, rfl, rfl, rfl, rfl, rfl, rfl, rfl⟩
  intro o n l full h
  exact h.1

theorem Inv_grpRef {P : Par GrpStore Unit} {t : Tab GrpStore Unit} {l : List (Nat × Nat)} (h : Inv (grpRef c hk) P t l) :
    Inv (grpMap c hk) P t l := by
  rcases h with h | ⟨cc, o, full, ⟨h1, h2, h3, h4, h5, h6, h7, h8, h9, h10, h11, h12, h13⟩, hp⟩
  · exact Or.inl h
  · exact Or.inr ⟨cc, o, full, ⟨h1, h2, h3, h4, h5, h6, h7, h8, h9, h10, h11, h12, h13⟩, hp⟩

theorem grp_cfgSim (hs : c.strict = true) : CfgSim (grpRef c hk) (grpMap c' hk) GrpR where
  ops := grp_storeSim hs
  ov := rfl
  hash := rfl
  initBuckets := rfl
  initBpg := rfl
  rehashBpg := rfl
  noStore _ := Or.inl rfl
  debug := rfl
  debug' := rfl

/-- a strict environment to compare with -/
def refCfg : GrpCfg := { strict := true, junk := fun _ => false, bmi := false }

/-- the answers and the bytes written after the calls `ops`, in an arbitrary environment -/
theorem grp_bytes (h : GrpOK hk kw vw) (ops : List MapOp) (hops : ∀ op ∈ ops, GrpValid hk kw op) :
    ∃ bytes, ∀ c : GrpCfg, ∃ t, Tab.run (grpMap c hk) (Tab.new (grpMap c hk) kw vw) ops = .ok (t, FMap.empty.run (fun v => v % 2 ^ vw) ops) ∧
      grpSerialize c hk t = .ok bytes := by
  have hC := h.coveredRef (c := refCfg)
  obtain ⟨t, ht⟩ := hC.run ops hops
  obtain ⟨l, hi, _⟩ := hC.sem hops ⟨_, ht⟩
  obtain ⟨bytes, _, hb, _⟩ := grpSerialize_format (e := refCfg) (h.coveredE (c := refCfg) (e := refCfg) (sp := true) (fun _ => rfl)).laws
    (Inv_grpRef hi)
  refine ⟨bytes, fun c' => ?_⟩
  have hS := grp_cfgSim (c := refCfg) (c' := c') (hk := hk) rfl
  obtain ⟨⟨t', as⟩, h1, h2, rfl⟩ := hS.run ops (hS.new kw vw) _ ht
  refine ⟨t', h1, ?_⟩
  have hd : t'.dim (grpMap c' hk) = t.dim (grpRef refCfg hk) := hS.dim h2
  have hcount : grpCount t' = grpCount t := by
    unfold grpCount
    rw [h2.tb, h2.count, h2.bpg]
  have hsim : Sim Eq (grpSerialize refCfg hk t) (grpSerialize c' hk t') := by
    unfold grpSerialize
    rw [h2.kw, h2.vw, h2.tb, h2.elems, h2.bpg, hd, hcount]
    refine Sim.ite (fun _ => Sim.pure rfl) (fun _ => ?_)
    refine Sim.bind (grpSerGroups_sim h2.store _ _) ?_
    rintro r _ rfl
    exact Sim.pure rfl
  obtain ⟨x, hx, rfl⟩ := hsim _ hb
  exact hx

/-- **C98**: a `group_chaining_table` that has not read a file writes the same bytes after the same calls - whatever uninitialised memory
contains and no matter whether `select64` is compiled with BMI2 instructions. -/
theorem C98_group_same_bytes (h : GrpOK hk kw vw) (ops : List MapOp) (hops : ∀ op ∈ ops, GrpValid hk kw op) {t t' : Tab GrpStore Unit}
    (ht : After (grpMap c hk) kw vw ops t) (ht' : After (grpMap c' hk) kw vw ops t') :
    ∃ bytes, grpSerialize c hk t = .ok bytes ∧ grpSerialize c' hk t' = .ok bytes := by
  obtain ⟨bytes, hb⟩ := grp_bytes h ops hops
  obtain ⟨as, ht⟩ := ht
  obtain ⟨as', ht'⟩ := ht'
  obtain ⟨u, h1, h2⟩ := hb c
  obtain ⟨u', h1', h2'⟩ := hb c'
  rw [ht] at h1
  rw [ht'] at h1'
  cases h1
  cases h1'
  exact ⟨bytes, h2, h2'⟩

/-- insertions, erasures and a rehash with two contents of uninitialised memory, with and without BMI2 -/
example : ∃ t t' bytes, After (grpMap grpEx (.xorshift 64)) 11 13 grpExOps t ∧
    After (grpMap ⟨false, fun i => i % 3 == 0, true⟩ (.xorshift 64)) 11 13 grpExOps t' ∧
    grpSerialize grpEx (.xorshift 64) t = .ok bytes ∧ grpSerialize ⟨false, fun i => i % 3 == 0, true⟩ (.xorshift 64) t' = .ok bytes := by
  obtain ⟨t, h1⟩ := C43_group_map_semantics (c := grpEx) grpExOK grpExOps grpExOps_valid
  obtain ⟨t', h2⟩ := C43_group_map_semantics (c := ⟨false, fun i => i % 3 == 0, true⟩) grpExOK grpExOps grpExOps_valid
  obtain ⟨bytes, h3, h4⟩ := C98_group_same_bytes grpExOK grpExOps grpExOps_valid ⟨_, h1⟩ ⟨_, h2⟩
  exact ⟨t, t', bytes, ⟨_, h1⟩, ⟨_, h2⟩, h3, h4⟩

end SC
