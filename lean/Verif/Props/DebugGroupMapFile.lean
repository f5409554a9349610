import Verif.Group.DebugSerialMap
import Verif.Props.DebugGroupSerial
import Verif.Props.DebugMapFile
/-!
# Files of debug builds of `group_chaining_table` with `map_overflow` (C132)
-/
namespace SC

variable {g : GrpCfg} {hk : HashKind} {kw vw : Nat} {c : MapEnv} {e : MapFileEnv}

/-- the parameters of the correctness argument -/
abbrev grpDbgParMap (sp : Bool) (c : MapEnv) (g : GrpCfg) (hk : HashKind) (kw vw : Nat) : Par GrpDbg MapOv :=
  (grpDbgPar sp (grpDbgCfg g hk) hk kw vw).setOv (MapRep c)

theorem grp_dbg_valid {sp : Bool} {x : Cfg GrpDbg MapOv} (L : Laws x (grpDbgParMap sp c g hk kw vw)) {op : MapOp} (h : GrpDbgValid hk kw vw op) :
    OpOK (grpDbgParMap sp c g hk kw vw) op :=
  ValidOp.opOK (vals := fun v => v < 2 ^ vw) L.hi_lt L.lo_pos (fun _ hv => fit_iff (tr := fun w v => v % 2 ^ w).mpr hv)
    (fit_iff (tr := fun w v => v % 2 ^ w).mpr (Nat.two_pow_pos _)) h (.inr rfl)

/-! ## C132 -/

/-- **C132**, true part: after any calls that leave the overflow table empty, `serialize` fails no assertion; neither does `deserialize`, whatever table is
read into and whatever follows in the stream; the table read has the same widths, `size()`, size of groups, and if there are elements `bucket_count()`, and every
further sequence of calls, in which elements may spill, fails no assertion and gives the answers of a finite map with the contents of the one written.  The
further calls do not erase, or words read behind the end of an array are only unspecified (C58).  Missing: tables with elements in the overflow table, see
`C132_group_debug_read_false` and `C132_group_debug_foreign_memory_false`. -/
theorem C132_group_debug_map_file_partial (h : GrpOK hk kw vw) (hc : c.good) (hr : c.roomy) (he : e.good)
    (hf : DbgFits c (fun v => v % 2 ^ vw) vw) {ops : List MapOp} (hops : ∀ op ∈ ops, GrpDbgValid hk kw vw op) {t : Tab GrpDbg MapOv} {as : List Ans}
    (hrun : Tab.run (grpDbgOv g hk c) (Tab.new (grpDbgOv g hk c) kw vw) ops = .ok (t, as)) (hsz : t.size < 2 ^ 64) (h0 : t.ovf.items = []) :
    ∃ bytes, (grpDbgCfg g hk).serializeMap e t = .ok bytes ∧ ∀ t0 rest, ∃ t',
        (grpDbgCfg g hk).deserializeMap hk c e t0 (bytes ++ rest) = .ok (t', rest) ∧ t'.kw = t.kw ∧
        t'.vw = t.vw ∧ t'.size = t.size ∧ t'.bpg = t.bpg ∧ (t.size ≠ 0 → t'.bucketCount = t.bucketCount) ∧
        ∀ ops', (∀ op ∈ ops', GrpDbgValid hk kw vw op) → g.strict = false ∨ (∀ op ∈ ops', op.keeps = true) →
          ∃ t'', Tab.run (grpDbgOv g hk c) t' ops' = .ok (t'', (FMap.empty.after (fun v => v % 2 ^ vw) ops).run (fun v => v % 2 ^ vw) ops') := by
  obtain ⟨L0, hg, _⟩ := h.dbgPar (g := g)
  have L : Laws (grpDbgOv g hk c) (grpDbgParMap true c g hk kw vw) := L0.setOv (dbg_ov_lawful (tr := fun w v => v % 2 ^ w) hc hr hf)
  obtain ⟨Lf0, _⟩ := h.dbgFlat (g := g)
  have Lf : Laws ((grpDbgFlat g hk).setOv (mapOverflowDbg c)) (grpDbgParMap false c g hk kw vw) :=
    Lf0.setOv (dbg_ov_lawful (tr := fun w v => v % 2 ^ w) hc hr hf)
  obtain ⟨t₁, l, r1, hi, ha⟩ := Tab.run_new L hg ops (fun op hop => grp_dbg_valid L (hops op hop))
  have ha : Abs l (FMap.empty.after (fitNorm (fun w v => v % 2 ^ w) vw) ops) := ha
  rw [(FMap.run_congr (f := fitNorm (fun w v => v % 2 ^ w) vw) (g := fun v => v % 2 ^ vw) (fit_eq (Nat.two_pow_pos _)) (fun v hv => fit_eq hv) ops FMap.empty hops).2] at ha
  have : t₁ = t := congrArg Prod.fst (Except.ok.inj (r1.symm.trans hrun))
  subst t₁
  obtain ⟨n, l0, hb, hn, hl0⟩ := setOv_bare rfl hi
  have hsz' : t.elems < 2 ^ 64 := hsz
  rw [h0, List.length_nil, Nat.add_zero] at hn
  subst hn
  obtain rfl := hl0 h0
  obtain ⟨bytes, e1, e2⟩ := grpDbgSerialize_ok h.dbgStore h.dbgHash (h.dbgParE (g := g) (e := g) (sp := true) (fun _ => rfl)).1 hb hsz'
  have e1 : (grpDbgCfg g hk).serialize t.bare = .ok bytes := e1
  refine ⟨toBytes 8 0 ++ bytes, by simp only [GrpDbgCfg.serializeMap, MapOv.serialize_empty he h0, e1, ok_bind, pure_eq_ok], fun t0 rest => ?_⟩
  obtain ⟨u, f1, f2, f3, f4⟩ := e2 t0.bare rest
  have f3 : u.bpg = t.bpg := f3
  have f4 : t.elems ≠ 0 → u.tb = t.tb := f4
  have hul : u.elems = t.elems := by
    have h1 : u.size = _ := Sem.size ⟨l0, f2, ha⟩
    have h2 : t.size = _ := Sem.size ⟨l0, hi, ha⟩
    exact h1.trans h2.symm
  obtain ⟨o', w1, hu⟩ : ∃ o' : MapOv, (grpDbgCfg g hk).deserializeMap hk c e t0 (toBytes 8 0 ++ bytes ++ rest) = .ok (u.dress o', rest) ∧
      Inv (grpDbgOv g hk c) (grpDbgParMap false c g hk kw vw) (u.dress o') l0 := by
    by_cases hz : u.elems = 0
    · refine ⟨{ (mapOverflowDbg c).clear t0.ovf with count := c.grow ((mapOverflowDbg c).clear t0.ovf).count 0 }, ?_, ?_⟩
      · simp only [GrpDbgCfg.deserializeMap, List.append_assoc, MapOv.deserialize_empty, f1, ok_bind, if_pos hz]
        rfl
      · have hutb : u.tb = 0 := by
          have e1' := e1
          unfold GrpDbgCfg.serialize at e1'
          rw [if_pos (show t.bare.elems = 0 from hul.symm.trans hz)] at e1'
          cases e1'
          have f1' := f1
          unfold GrpDbgCfg.deserialize at f1'
          simp only [List.append_assoc, takeBytes_append _ _ (toBytes_length _ _), ok_bind] at f1'
          obtain ⟨_, _, f1'⟩ := bind_eq_ok f1'
          rw [ofBytes8 (show t.bare.elems < 2 ^ 64 from hsz'), if_pos (show t.bare.elems = 0 from hul.symm.trans hz)] at f1'
          cases f1'
          rfl
        refine setOv_dress (ov := mapOverflowDbg c) (n := 0) (full' := t0.ovf.bits) rfl f2 ?_ (.inl ⟨hutb, L0.lo_pos⟩)
        exact ⟨rfl, Nat.zero_le _, hc.grow_pos _ _, hc.grow_lt _ _, List.Perm.refl _, by simp, List.Pairwise.nil⟩
    · obtain ⟨o', full, o1, o2⟩ := map_read_rep hc (o := { (mapOverflow c).clear t0.ovf with count := c.grow ((mapOverflow c).clear t0.ovf).count 0 }) rfl (2 ^ u.tb)
      refine ⟨o', ?_, setOv_dress (ov := mapOverflowDbg c) rfl f2 o2 (.inr rfl)⟩
      have o1' : (mapOverflowDbg c).resizeBuckets { (mapOverflowDbg c).clear t0.ovf with count := c.grow ((mapOverflowDbg c).clear t0.ovf).count 0 } (2 ^ u.tb) = .ok o' := by
        have hcnt : 2 ^ u.tb ≤ o'.count := by
          cases o1
          refine hr _ _ ?_
          have h7 : u.tb < 64 := by
            rcases f2 with ⟨_, _, _, _, h5, _⟩ | ⟨cn, o, full, hl, _⟩
            · omega
            · exact Nat.lt_of_le_of_lt hl.hi L0.hi_lt
          have := (Nat.pow_le_pow_iff_right (a := 2) (by omega)).mpr (show u.tb ≤ 63 by omega)
          have e : NPOS = 2 ^ 64 - 1 := rfl
          omega
        show ((mapOverflow c).resizeBuckets { (mapOverflow c).clear t0.ovf with count := c.grow ((mapOverflow c).clear t0.ovf).count 0 } (2 ^ u.tb) >>= _) = _
        rw [o1, ok_bind, ddcheck_ok hcnt, ok_bind]
        rfl
      simp only [GrpDbgCfg.deserializeMap, List.append_assoc, MapOv.deserialize_empty, f1, ok_bind, if_neg hz]
      rw [o1', ok_bind]
      rfl
  have hS : Sem (grpDbgOv g hk c) (grpDbgParMap false c g hk kw vw) (u.dress o') _ := ⟨_, hu, ha⟩
  have hS0 : Sem (grpDbgOv g hk c) (grpDbgParMap true c g hk kw vw) t _ := ⟨_, hi, ha⟩
  refine ⟨u.dress o', w1, hS.widths.1.trans hS0.widths.1.symm, hS.widths.2.trans hS0.widths.2.symm, hS.size.trans hS0.size.symm, f3, fun hne => ?_,
    fun ops' hops' hor => ?_⟩
  · show u.bucketCount = _
    unfold Tab.bucketCount
    rw [f4 hne]
  · have hu' : Inv ((grpDbgFlat g hk).setOv (mapOverflowDbg c)) (grpDbgParMap false c g hk kw vw) (u.dress o') l0 :=
      (Inv_withErase (g := grpDbgOv g hk c)).mpr hu
    obtain ⟨t'', _, q1, _⟩ := Tab.run_ok Lf hg ops' hu' ha (fun op hop => grp_dbg_valid Lf (hops' op hop))
    have e := (FMap.run_congr (f := fitNorm (fun w v => v % 2 ^ w) vw) (g := fun v => v % 2 ^ vw) (fit_eq (Nat.two_pow_pos _))
      (fun v hv => fit_eq hv) ops' (FMap.empty.after (fun v => v % 2 ^ vw) ops) hops').1
    refine ⟨t'', ?_⟩
    rw [← e]
    rcases hor with hst | hks
    · have hst : (grpDbgCfg g hk).g.strict = false := hst
      rw [grpDbgFlat, grpDbgMapE_self hst] at q1
      exact q1
    · have q1 : Tab.run ((grpDbgOv g hk c).withErase _) (u.dress o') ops' = _ := q1
      rw [run_withErase ops' hks] at q1
      exact q1

/-- **C132** is false: whenever an element is in the overflow table, and the keys there happen to be addresses that can be read, so that `serialize`
writes something, the assertion at the end of `deserialize` fails, whatever table is read into: it compares `m_elements` with the number of elements in the
groups. -/
theorem C132_group_debug_read_false (h : GrpOK hk kw vw) (hc : c.good) (hr : c.roomy) (he : e.good)
    (hkv : e.kbytes = e.vbytes) (hp : ∀ a s, e.peek a e.kbytes = some s → s.length = e.kbytes)
    (hf : DbgFits c (fun v => v % 2 ^ vw) vw) {ops : List MapOp} (hops : ∀ op ∈ ops, GrpDbgValid hk kw vw op) {t : Tab GrpDbg MapOv} {as : List Ans}
    (hrun : Tab.run (grpDbgOv g hk c) (Tab.new (grpDbgOv g hk c) kw vw) ops = .ok (t, as)) (hsz : t.size < 2 ^ 64) (h0 : t.ovf.items ≠ [])
    {bytes : List Nat} (hser : (grpDbgCfg g hk).serializeMap e t = .ok bytes) (t0 : Tab GrpDbg MapOv) (rest : List Nat) :
    (grpDbgCfg g hk).deserializeMap hk c e t0 (bytes ++ rest) = .error .exc := by
  obtain ⟨L0, hg, _⟩ := h.dbgPar (g := g)
  have L : Laws (grpDbgOv g hk c) (grpDbgParMap true c g hk kw vw) := L0.setOv (dbg_ov_lawful (tr := fun w v => v % 2 ^ w) hc hr hf)
  obtain ⟨t₁, l, r1, hi, _⟩ := Tab.run_new L hg ops (fun op hop => grp_dbg_valid L (hops op hop))
  have : t₁ = t := congrArg Prod.fst (Except.ok.inj (r1.symm.trans hrun))
  subst t₁
  obtain ⟨n, cn, hl, hn⟩ := setOv_bare_live rfl hi h0
  have hsz' : t.elems < 2 ^ 64 := hsz
  have hlen : t.ovf.items.length ≤ t.elems := by
    obtain ⟨_, _, _, h2, _⟩ := setOv_bare rfl hi
    omega
  obtain ⟨b1, e1, e2⟩ := grpDbgRead_exc h.dbgStore h.dbgHash (h.dbgParE (g := g) (e := g) (sp := true) (fun _ => rfl)).1 hl
    (m := t.elems) (by omega) hsz' (show t.elems ≠ n by omega)
  have e1 : (grpDbgCfg g hk).serialize t.bare = .ok b1 := e1
  unfold GrpDbgCfg.serializeMap at hser
  obtain ⟨ob, s1, hser⟩ := bind_eq_ok hser
  rw [e1, ok_bind] at hser
  cases hser
  obtain ⟨o', ho⟩ := MapOv.serialize_consumed (c := c) he hkv hp (by omega) s1 ((mapOverflowDbg c).clear t0.ovf) (b1 ++ rest)
  unfold GrpDbgCfg.deserializeMap
  rw [List.append_assoc, ho, ok_bind]
  dsimp only
  rw [e2, error_bind]

/-- **C132** is false: if the key of an element in the overflow table is not an address from which the process may read, `serialize` is undefined also in a
debug build. -/
theorem C132_group_debug_foreign_memory_false (he : e.good) {t : Tab GrpDbg MapOv} {x : Nat × Nat} (hx : x ∈ t.ovf.items)
    (hp : e.peek x.1 e.kbytes = none) : (grpDbgCfg g hk).serializeMap e t = .error .undef := by
  simp only [GrpDbgCfg.serializeMap, MapOv.serialize_fails he hx hp, error_bind]

/-! ## Witness

More than 255 keys of the same group cannot be evaluated, so the example is reasoned about, as in C119. -/

theorem likeMap_debug : LikeMap c (mapOverflowDbg c) := by
  refine ⟨fun _ => ⟨rfl, rfl⟩, fun o b k v r h => ?_⟩
  have h : (o.insert c b k v >>= _) = .ok r := h
  obtain ⟨⟨o', p⟩, h1, h2⟩ := bind_eq_ok h
  rw [h1]
  dsimp only at h2
  split at h2
  · obtain ⟨_, _, h2⟩ := bind_eq_ok h2
    exact h2
  · exact h2

/-- the table class of the example -/
abbrev grpDbgOvEx : Cfg GrpDbg MapOv := grpDbgOv grpEx (.xorshift 64) ovEx

theorem ovEx_dbgFits_grp : DbgFits ovEx (fun v => v % 2 ^ 13) 13 := fun v hv => by
  show v % 2 ^ 32 = v % 2 ^ 13
  rw [Nat.mod_eq_of_lt hv]
  exact Nat.mod_eq_of_lt (Nat.lt_of_lt_of_le hv (show 2 ^ 13 ≤ 2 ^ 32 by decide))

theorem spill_dbg_valid : ∀ op ∈ spillOps, GrpDbgValid (.xorshift 64) 11 13 op := by decide +kernel

theorem spillKeys_dbg_bucket : ∀ k ∈ spillKeys, ∃ q b, (grpDbgOvEx.hash 11).map k 3 = .ok (q, b) ∧ b < 3 := by
  have h : ∀ k ∈ spillKeys, (match (grpDbgOvEx.hash 11).map k 3 with
    | .ok (_, b) => decide (b < 3)
    | .error _ => false) = true := by decide +kernel
  intro k hk
  have h := h k hk
  split at h
  · next q b e => exact ⟨q, b, e, of_decide_eq_true h⟩
  · cases h

/-- insertions after which an element is in the overflow table -/
theorem dbg_spill_ex : ∃ ops, (∀ op ∈ ops, GrpDbgValid (.xorshift 64) 11 13 op) ∧
    ∃ t as, Tab.run grpDbgOvEx (Tab.new grpDbgOvEx 11 13) ops = .ok (t, as) ∧ t.ovf.items ≠ [] := by
  obtain ⟨L0, hg, _⟩ := grpExOK.dbgPar (g := grpEx)
  have L : Laws grpDbgOvEx (grpDbgParMap true ovEx grpEx (.xorshift 64) 11 13) :=
    L0.setOv (dbg_ov_lawful (tr := fun w v => v % 2 ^ w) ovEx_good ovEx_roomy ovEx_dbgFits_grp)
  obtain ⟨t, l, hrun, hi, ha⟩ := Tab.run_new L hg spillOps (fun op hop => grp_dbg_valid L (spill_dbg_valid op hop))
  have hsz : t.size = 256 := by
    have h1 := Sem.size (P := grpDbgParMap true ovEx grpEx (.xorshift 64) 11 13) ⟨l, hi, ha⟩
    rw [h1]
    decide +kernel
  obtain ⟨ks, hks⟩ : ∃ ks, spillKeys = 1 :: ks := by
    have h1 : (match spillKeys with | [] => false | k :: _ => k == 1) = true := by decide +kernel
    cases e : spillKeys with
    | nil => rw [e] at h1; cases h1
    | cons k ks =>
      rw [e] at h1
      exact ⟨ks, by rw [beq_iff_eq.mp h1]⟩
  have hone : (match Tab.step grpDbgOvEx (Tab.new grpDbgOvEx 11 13) (.insert 1 5) with
      | .ok (t1, _) => t1.tb == 3 && t1.bpg == 3 && t1.ovf.items.isEmpty && decide (0 < t1.ovf.count) && decide (t1.ovf.count < NPOS)
      | .error _ => false) = true := by decide +kernel
  have hrun' := hrun
  rw [spillOps, hks, List.map_cons, Tab.run] at hrun'
  obtain ⟨⟨t1, a⟩, h1, h2⟩ := bind_eq_ok hrun'
  obtain ⟨⟨t2, as⟩, h3, h4⟩ := bind_eq_ok h2
  have h4 : t2 = t := congrArg Prod.fst (Except.ok.inj h4)
  subst h4
  have h1 : Tab.step grpDbgOvEx (Tab.new grpDbgOvEx 11 13) (.insert 1 5) = .ok (t1, a) := h1
  rw [h1] at hone
  simp only [Bool.and_eq_true, beq_iff_eq, List.isEmpty_iff, decide_eq_true_eq] at hone
  obtain ⟨⟨⟨⟨o1, o2⟩, o3⟩, o4⟩, o5⟩ := hone
  have h3 : Tab.run grpDbgOvEx t1 (ks.map (fun k => .insert k 5)) = .ok (t2, as) := h3
  rcases map_inserts_keep (g := grpDbgOvEx) likeMap_debug ovEx_good 5 ks (by rw [o1]; decide) o3 o4 o5 h3 with
    ⟨ks', g1, u, bs, g2, g3⟩ | ⟨r1, r2, r3⟩
  · refine ⟨.insert 1 5 :: ks'.map (fun k => .insert k 5), ?_, u, a :: bs, ?_, g3⟩
    · intro op hop
      refine spill_dbg_valid op ?_
      rw [spillOps, hks, List.map_cons]
      rcases List.mem_cons.mp hop with hop | hop
      · rw [hop]; exact List.mem_cons_self
      · obtain ⟨k, hk1, hk2⟩ := List.mem_map.mp hop
        rw [← hk2]
        exact List.mem_cons_of_mem _ (List.mem_map_of_mem (g1 k hk1))
    · rw [Tab.run, h1]
      simp only [ok_bind, g2]
      rfl
  · refine ⟨spillOps, spill_dbg_valid, t2, _, hrun, fun h0 => ?_⟩
    rcases hi with ⟨_, _, _, _, _, h6, _⟩ | ⟨cn, o, full, hl, hp⟩
    · have : t2.size = 0 := h6
      omega
    have ho : o = [] := MapRep.nil_of hl.orep h0
    subst ho
    have hR : GrpDbgRep true (grpDbgCfg grpEx (.xorshift 64)) 11 _ _ t2.store (t2.dim grpDbgOvEx) cn := hl.rep.1
    have := group_crowd_gen L hl hR.base hp (by
      intro e he
      rw [r1, o1, r2, o2]
      have := (ha.get e.1 e.2).mpr he
      rw [spillOps] at this
      rcases after_inserts _ this with h | h
      · exact spillKeys_dbg_bucket _ h
      · cases h)
    omega

/-- its size, and the part of its file behind the overflow table -/
theorem dbg_spill_file {ops : List MapOp} (hops : ∀ op ∈ ops, GrpDbgValid (.xorshift 64) 11 13 op) {t : Tab GrpDbg MapOv} {as : List Ans}
    (hrun : Tab.run grpDbgOvEx (Tab.new grpDbgOvEx 11 13) ops = .ok (t, as)) (h0 : t.ovf.items ≠ []) :
    t.size < 2 ^ 64 ∧ ∃ bytes, (grpDbgCfg grpEx (.xorshift 64)).serialize t.bare = .ok bytes := by
  obtain ⟨L0, hg, _⟩ := grpExOK.dbgPar (g := grpEx)
  have L : Laws grpDbgOvEx (grpDbgParMap true ovEx grpEx (.xorshift 64) 11 13) :=
    L0.setOv (dbg_ov_lawful (tr := fun w v => v % 2 ^ w) ovEx_good ovEx_roomy ovEx_dbgFits_grp)
  obtain ⟨t₁, l, r1, hi, _⟩ := Tab.run_new L hg ops (fun op hop => grp_dbg_valid L (hops op hop))
  have : t₁ = t := congrArg Prod.fst (Except.ok.inj (r1.symm.trans hrun))
  subst t₁
  have hsz : t.elems < 2 ^ 64 := by
    have h1 := nodup_length_le (2 ^ 11) (l.map Prod.fst) (hi.nodup L) (fun k hk => by
      obtain ⟨e, he, rfl⟩ := List.mem_map.mp hk
      exact hi.key_lt L he)
    rw [List.length_map] at h1
    have h2 := hi.size
    omega
  obtain ⟨n, cn, hl, hn⟩ := setOv_bare_live rfl hi h0
  obtain ⟨b1, e1, _⟩ := grpDbgRead_exc grpExOK.dbgStore grpExOK.dbgHash (grpExOK.dbgParE (g := grpEx) (e := grpEx) (sp := true) (fun _ => rfl)).1 hl
    (m := t.elems) (by omega) hsz (show t.elems ≠ n by omega)
  exact ⟨hsz, b1, e1⟩

/-- a file is written if every number can be read as an address -/
theorem mapFileAll_serialize (o : MapOv) : ∃ bytes, o.serialize mapFileAll = .ok bytes := by
  unfold MapOv.serialize
  generalize mapFileAll.visit o.count (o.items.map Prod.fst) = ks
  have : ∃ body, ks.mapM (fun k => (do
      let a ← mapFileAll.writeAt k
      let b ← mapFileAll.writeAt k
      return a ++ b : Res (List Nat))) = .ok body := by
    induction ks with
    | nil => exact ⟨[], rfl⟩
    | cons k ks ih =>
      obtain ⟨body, hb⟩ := ih
      refine ⟨(toBytes mapFileAll.kbytes (7 * k) ++ toBytes mapFileAll.kbytes (7 * k)) :: body, ?_⟩
      rw [List.mapM_cons, hb]
      rfl
  obtain ⟨body, hb⟩ := this
  exact ⟨_, by rw [hb]; rfl⟩

/-- **C132** is false, witness: if keys can be read as addresses, the file cannot be read, and if not, there is no file -/
theorem C132_group_debug_file_false : ∃ (ops : List MapOp) (t : Tab GrpDbg MapOv) (as : List Ans) (bytes : List Nat),
    (∀ op ∈ ops, GrpDbgValid (.xorshift 64) 11 13 op) ∧ Tab.run grpDbgOvEx (Tab.new grpDbgOvEx 11 13) ops = .ok (t, as) ∧
    (grpDbgCfg grpEx (.xorshift 64)).serializeMap mapFileAll t = .ok bytes ∧
    (∀ t0 rest, (grpDbgCfg grpEx (.xorshift 64)).deserializeMap (.xorshift 64) ovEx mapFileAll t0 (bytes ++ rest) = .error .exc) ∧
    (grpDbgCfg grpEx (.xorshift 64)).serializeMap { mapFileEx with peek := fun _ _ => none } t = .error .undef := by
  obtain ⟨ops, h1, t, as, h2, h3⟩ := dbg_spill_ex
  obtain ⟨h4, b2, g2⟩ := dbg_spill_file h1 h2 h3
  obtain ⟨b1, g1⟩ := mapFileAll_serialize t.ovf
  have h5 : (grpDbgCfg grpEx (.xorshift 64)).serializeMap mapFileAll t = .ok (b1 ++ b2) := by
    simp only [GrpDbgCfg.serializeMap, g1, g2, ok_bind, pure_eq_ok]
  obtain ⟨x, hx⟩ := List.exists_mem_of_ne_nil _ h3
  exact ⟨ops, t, as, b1 ++ b2, h1, h2, h5, fun t0 rest =>
    C132_group_debug_read_false grpExOK ovEx_good ovEx_roomy (e := mapFileAll) (fun _ ks => List.reverse_perm ks) rfl
      (fun a s hs => by cases hs; exact toBytes_length _ _) ovEx_dbgFits_grp h1 h2 h4 h3 h5 t0 rest,
    C132_group_debug_foreign_memory_false (e := { mapFileEx with peek := fun _ _ => none }) mapFileEx_good hx rfl⟩

/-- a table with an empty overflow table, read into another one, and used further -/
example : ∃ t as bytes t', Tab.run grpDbgOvEx (Tab.new grpDbgOvEx 11 13) grpDbgExShort = .ok (t, as) ∧
    (grpDbgCfg grpEx (.xorshift 64)).serializeMap mapFileEx t = .ok bytes ∧
    (grpDbgCfg grpEx (.xorshift 64)).deserializeMap (.xorshift 64) ovEx mapFileEx (Tab.new grpDbgOvEx 5 5) (bytes ++ [7]) = .ok (t', [7]) ∧
    t'.size = 2 ∧ t'.bucketCount = 16 ∧
    ∃ t'', Tab.run grpDbgOvEx t' spillOps =
      .ok (t'', (FMap.empty.after (fun v => v % 2 ^ 13) grpDbgExShort).run (fun v => v % 2 ^ 13) spillOps) := by
  have hx : (match Tab.run grpDbgOvEx (Tab.new grpDbgOvEx 11 13) grpDbgExShort with
    | .ok (t, _) => decide (t.size = 2 ∧ t.ovf.items = [] ∧ t.bucketCount = 16)
    | .error _ => false) = true := by decide +kernel
  split at hx
  case h_2 => cases hx
  next t as hrun =>
  obtain ⟨x1, x2, x3⟩ := of_decide_eq_true hx
  obtain ⟨bytes, e1, e2⟩ := C132_group_debug_map_file_partial (e := mapFileEx) grpExOK ovEx_good ovEx_roomy mapFileEx_good ovEx_dbgFits_grp
    grpDbgExShort_valid hrun (by rw [x1]; decide) x2
  obtain ⟨t', f1, _, _, f3, _, f4, f2⟩ := e2 (Tab.new grpDbgOvEx 5 5) [7]
  exact ⟨t, as, bytes, t', hrun, e1, f1, by rw [f3, x1], by rw [f4 (by omega), x3],
    f2 _ spill_dbg_valid (.inr (by decide +kernel))⟩

end SC
