import Verif.Overflow.MapSerial
import Verif.Props.Overflow
import Verif.Props.ArrayGroupSerial
/-!
# Files of tables with `map_overflow` (C119)
-/
namespace SC

variable {KB VB : Type} {p : SepCfg KB VB} {gc : GrpCfg} {hk : HashKind} {tr : Nat → Nat → Nat} {W kw vw : Nat} {c : MapEnv} {e : MapFileEnv} {sp : Bool}
  {KRep : KB → Nat → Nat → List Nat → Prop} {VRep : VB → Nat → Nat → List Nat → Prop}

/-- an overflow table without elements -/
theorem MapRep.nil_of {o : MapOv} {n : Nat} {l : List (Nat × Nat × Nat)} {full : Nat → Bool} (h : MapRep c o n l full) (h0 : o.items = []) : l = [] := by
  have := h.perm.length_eq
  rw [h0, List.length_map, List.length_nil] at this
  exact List.eq_nil_of_length_eq_zero this

/-- the part of the file behind an empty overflow table -/
theorem sep_map_file (hg : hk.grow kw p.maxSize 1 < 65) (L' : Laws (sepMap p hk) (sepPar p hk KRep VRep DummyRep tr (tr vw) false W kw vw))
    {knorm : Nat → Nat → Nat} (hK : LawfulBucket p.kops knorm KRep) (hV : LawfulBucket p.vops tr VRep) {t : Tab (SepStore KB VB) MapOv} {l : List (Nat × Nat)}
    (L : Laws (sepMapOv p hk c) (sepPar p hk KRep VRep (MapRep c) tr c.val false W kw vw))
    (hi : Inv (sepMapOv p hk c) (sepPar p hk KRep VRep (MapRep c) tr c.val false W kw vw) t l) (h0 : t.ovf.items = []) (hsz : t.size < 2 ^ 64) :
    ∃ bytes, p.serialize hk t.bare = .ok bytes ∧ ∀ (t0 : Tab (SepStore KB VB) Unit) (rest : List Nat),
      ∃ u, p.deserialize hk t0 (bytes ++ rest) = .ok (u, rest) ∧ u.kw = t.kw ∧ u.vw = t.vw ∧ u.tb = t.tb ∧ u.elems = t.elems ∧
        ∀ o full, MapRep c o (2 ^ u.tb) [] full → Inv (sepMapOv p hk c) (sepPar p hk KRep VRep (MapRep c) tr c.val false W kw vw) (u.dress o) l := by
  rcases hi with ⟨h1, h2, h3, h4, h5, h6, rfl, hst, n, full, h7⟩ | ⟨cn, o, full, hl, hp⟩
  · have hP : SepParOK p hk tr W kw vw false (sepPar p hk KRep VRep DummyRep tr (tr vw) false W kw vw) :=
      ⟨L', hg, ⟨KRep, VRep, rfl⟩, knorm, KRep, VRep, rfl, hK, hV⟩
    have hb : Inv (sepMap p hk) (sepPar p hk KRep VRep DummyRep tr (tr vw) false W kw vw) t.bare [] :=
      .inl ⟨h1, h2, h3, h4, h5, h6, rfl, hst, 0, _, rfl, rfl⟩
    obtain ⟨bytes, e1, e2⟩ := serialize_ok hP hb hsz
    refine ⟨bytes, e1, fun t0 rest => ?_⟩
    obtain ⟨u, f1, f2, f3⟩ := e2 t0 rest
    have f3 : u.tb = t.tb := f3
    rcases f2 with ⟨g1, g2, g3, g4, g5, g6, _, g8, _⟩ | ⟨cn, o, full, hl, _⟩
    · exact ⟨u, f1, by rw [g1, h1]; rfl, by rw [g2, h2]; rfl, f3, by rw [g6, h6], fun o full ho => .inl ⟨g1, g2, g3, g4, g5, g6, rfl, g8, _, full, ho⟩⟩
    · have := hl.tb_pos L'
      omega
  · have hgood : GoodDim W (t.dim (sepMapOv p hk c)) := hl.good L
    have ho : o = [] := MapRep.nil_of hl.orep h0
    subst ho
    obtain ⟨bytes, e1, e2⟩ := serialize_rep (t := t.bare) L' rfl hK hV hl.tkw hl.tvw hl.lo hl.hi hgood hl.rep hsz
    refine ⟨bytes, e1, fun t0 rest => ?_⟩
    obtain ⟨u, full', f1, f2, f3, f4, f5, f6, f7, f8⟩ := e2 t0 rest
    have f5 : u.tb = t.tb := f5
    have f6 : u.elems = t.elems := f6
    refine ⟨u, f1, f2, f3, f5, f6, fun o full ho => .inr ⟨cn, [], full, ?_, ?_⟩⟩
    · have e5 : (u.dress o).tb = t.tb := f5
      exact { tkw := by rw [← hl.tkw]; exact f2, tvw := by rw [← hl.tvw]; exact f3, bpg_pos := by show 1 ≤ u.bpg; omega,
              bpg_le := by show u.bpg ≤ 64; omega, lo := by rw [e5]; exact hl.lo,
              hi := by rw [e5]; exact hl.hi, rep := f8, orep := ho, cok := by rw [e5]; exact hl.cok,
              ofull := by simp, vals := by rw [e5]; exact hl.vals, ovals := by simp,
              elems := by rw [e5]; exact f6.trans hl.elems }
    · rw [show (u.dress o).tb = t.tb from f5]; exact hp

/-- the overflow table after reading an empty one -/
theorem map_read_rep (hc : c.good) {o : MapOv} (h : o.items = []) (n : Nat) : ∃ o' full, (mapOverflow c).resizeBuckets o n = .ok o' ∧ MapRep c o' n [] full :=
  ⟨_, _, rfl, rfl, Nat.le_refl _, hc.grow_pos _ _, hc.grow_lt _ _, by rw [h]; exact List.Perm.refl _, by simp, List.Pairwise.nil⟩

/-- **C119**, true part for `separate_chaining_map`: after any calls that leave the overflow table empty, the table is written without access to foreign memory;
the file is read into any object - whatever its widths, contents and overflow table are -, exactly the bytes written are consumed, the table read has the same
widths, `size()` and `bucket_count()`, and every further sequence of calls, in which elements may spill again, gives the answers of a finite map with
the contents of the one written.  Missing: tables with elements in the overflow table, see `C119_separate_foreign_memory_false` and
`C119_separate_values_false`. -/
theorem C119_separate_map_file_partial (h : SepOK p hk tr W kw vw) (hc : c.good) (he : e.good) (hf : OvFits c (tr vw)) {ops : List MapOp}
    (hops : ∀ op ∈ ops, OvValid c (tr vw) hk W kw op) {t : Tab (SepStore KB VB) MapOv} {as : List Ans}
    (hrun : Tab.run (sepMapOv p hk c) (Tab.new (sepMapOv p hk c) kw vw) ops = .ok (t, as)) (h0 : t.ovf.items = []) (hsz : t.size < 2 ^ 64) :
    ∃ bytes, p.serializeMap hk e t = .ok bytes ∧ ∀ (t0 : Tab (SepStore KB VB) MapOv) (rest : List Nat), ∃ t',
      p.deserializeMap hk c e t0 (bytes ++ rest) = .ok (t', rest) ∧ t'.kw = t.kw ∧ t'.vw = t.vw ∧ t'.size = t.size ∧ t'.bucketCount = t.bucketCount ∧
      ∀ ops', (∀ op ∈ ops', OvValid c (tr vw) hk W kw op) →
        ∃ t'', Tab.run (sepMapOv p hk c) t' ops' = .ok (t'', (FMap.empty.after (tr vw) ops).run (tr vw) ops') := by
  obtain ⟨knorm, KRep, h1, h2, h3⟩ := h.keys.lawful
  obtain ⟨⟨VRep, h4⟩, h5⟩ := h.vals.lawful
  have hM : 2 ≤ p.maxSize := by have := h.max; unfold SepCfg.maxSize; omega
  obtain ⟨L, hg⟩ := sep_laws (ov := mapOverflow c) h1 h2 h4 h3 (h5 vw) (lawful_map c hc) (fun x => Nat.mod_eq_of_lt (hf.wide x)) hM h.hash h.vw_pos h.vw_le false
  obtain ⟨L', _⟩ := sep_laws (ov := dummyOverflow) h1 h2 h4 h3 (h5 vw) (lawful_dummy (tr vw)) (h5 vw) hM h.hash h.vw_pos h.vw_le false
  have hv : ∀ op, OvValid c (tr vw) hk W kw op → OpOK (sepPar p hk KRep VRep (MapRep c) tr c.val false W kw vw) op := fun op hop =>
    ValidOp.opOK L.hi_lt L.lo_pos (fun v hv => hv) (show c.val 0 = tr vw 0 by rw [hf.zero]; exact Nat.zero_mod _) hop
  obtain ⟨t₁, l, r1, r2, r3⟩ := Tab.run_new L hg ops (fun op hop => hv op (hops op hop))
  have : t₁ = t := congrArg Prod.fst (Except.ok.inj (r1.symm.trans hrun))
  subst t₁
  obtain ⟨bytes, e1, e2⟩ := sep_map_file hg L' h1 h4 L r2 h0 hsz
  refine ⟨toBytes 8 0 ++ bytes, by simp only [SepCfg.serializeMap, MapOv.serialize_empty he h0, e1, ok_bind, pure_eq_ok], fun t0 rest => ?_⟩
  obtain ⟨u, f1, f2, f3, f4, f5, f6⟩ := e2 t0.bare rest
  obtain ⟨o', full, o1, o2⟩ := map_read_rep hc (o := { (mapOverflow c).clear t0.ovf with count := c.grow ((mapOverflow c).clear t0.ovf).count 0 }) rfl (2 ^ u.tb)
  refine ⟨u.dress o', ?_, f2, f3, f5, by show u.bucketCount = _; unfold Tab.bucketCount; rw [f4], fun ops' hops' => ?_⟩
  · simp only [SepCfg.deserializeMap, List.append_assoc, MapOv.deserialize_empty, f1, ok_bind]
    rw [o1, ok_bind]
    rfl
  · obtain ⟨t'', _, q1, _⟩ := Tab.run_ok L hg ops' (f6 o' full o2) r3 (fun op hop => hv op (hops' op hop))
    exact ⟨t'', q1⟩

/-- **C119** is false: if an element is in the overflow table and its key is not an address from which the process may read, `serialize` is undefined. -/
theorem C119_separate_foreign_memory_false (he : e.good) {t : Tab (SepStore KB VB) MapOv} {x : Nat × Nat} (hx : x ∈ t.ovf.items) (hp : e.peek x.1 e.kbytes = none) :
    p.serializeMap hk e t = .error .undef := by
  simp only [SepCfg.serializeMap, MapOv.serialize_fails he hx hp, error_bind]

/-- **C119** is false also if all of memory can be read: after any calls, if the value of an element in the overflow table is overwritten, the map changes but
the file does not; so there is no way to read the value from the file. -/
theorem C119_separate_values_false (h : SepOK p hk tr W kw vw) (hc : c.good) (hf : OvFits c (tr vw)) {ops : List MapOp}
    (hops : ∀ op ∈ ops, OvValid c (tr vw) hk W kw op) {t : Tab (SepStore KB VB) MapOv} {as : List Ans}
    (hrun : Tab.run (sepMapOv p hk c) (Tab.new (sepMapOv p hk c) kw vw) ops = .ok (t, as)) {k y : Nat} (hx : (k, y) ∈ t.ovf.items) {v : Nat}
    (hv : v % 2 ^ c.vbits = tr vw v) :
    ∃ n t', t.find (sepMapOv p hk c) k = .ok n ∧ t.writeValue (sepMapOv p hk c) n v = .ok t' ∧ t'.lookup (sepMapOv p hk c) k = .ok (some (k, tr vw v)) ∧
      p.serializeMap hk e t' = p.serializeMap hk e t := by
  obtain ⟨knorm, KRep, h1, h2, h3⟩ := h.keys.lawful
  obtain ⟨⟨VRep, h4⟩, h5⟩ := h.vals.lawful
  have hM : 2 ≤ p.maxSize := by have := h.max; unfold SepCfg.maxSize; omega
  obtain ⟨L, hg⟩ := sep_laws (ov := mapOverflow c) h1 h2 h4 h3 (h5 vw) (lawful_map c hc) (fun x => Nat.mod_eq_of_lt (hf.wide x)) hM h.hash h.vw_pos h.vw_le false
  obtain ⟨t₁, l, r1, r2, _⟩ := Tab.run_new L hg ops (fun op hop =>
    ValidOp.opOK L.hi_lt L.lo_pos (fun v hv => hv) (show c.val 0 = tr vw 0 by rw [hf.zero]; exact Nat.zero_mod _) (hops op hop))
  have : t₁ = t := congrArg Prod.fst (Except.ok.inj (r1.symm.trans hrun))
  subst t₁
  obtain ⟨n, o', g1, g2, g3, g4, g5⟩ := spilled_write hc L rfl rfl r2 hx (v := v) hv
  refine ⟨n, _, g1, g2, g5, ?_⟩
  simp only [SepCfg.serializeMap, MapOv.serialize_congr (e := e) g3 g4]
  rfl

/-! ## Example -/

/-- an environment with 4-byte keys and values in which no address below 4096 can be read -/
def mapFileEx : MapFileEnv where
  kbytes := 4
  vbytes := 4
  visit _ ks := ks.reverse
  peek a n := if a < 4096 then none else some (List.replicate n 0)

theorem mapFileEx_good : mapFileEx.good := fun _ ks => List.reverse_perm ks

/-- an environment in which all of memory can be read -/
def mapFileAll : MapFileEnv := { mapFileEx with peek := fun a n => some (toBytes n (7 * a)) }

/-- key 850 is in the overflow table of the example -/
theorem ovExSpilled : ∃ t as, Tab.run (sepMapOv exCfg (.xorshift 16) ovEx) (Tab.new (sepMapOv exCfg (.xorshift 16) ovEx) 10 20) ovExOps =
    .ok (t, as) ∧ (850, 1050) ∈ t.ovf.items := by
  have h : (match Tab.run (sepMapOv exCfg (.xorshift 16) ovEx) (Tab.new (sepMapOv exCfg (.xorshift 16) ovEx) 10 20) ovExOps with
    | .ok (t, _) => t.ovf.items.contains (850, 1050)
    | .error _ => false) = true := by decide +kernel
  revert h
  cases Tab.run (sepMapOv exCfg (.xorshift 16) ovEx) (Tab.new (sepMapOv exCfg (.xorshift 16) ovEx) 10 20) ovExOps with
  | error e => intro h; cases h
  | ok r =>
    intro h
    exact ⟨r.1, r.2, rfl, List.contains_iff_mem.mp h⟩

/-- **C119** is false: there is a table with elements in its overflow table that cannot be written. -/
theorem C119_map_file_false : ¬ ∀ (ops : List MapOp), (∀ op ∈ ops, OvValid ovEx (fun v => v % 2 ^ 32) (.xorshift 16) 16 10 op) →
    ∀ t as, Tab.run (sepMapOv exCfg (.xorshift 16) ovEx) (Tab.new (sepMapOv exCfg (.xorshift 16) ovEx) 10 20) ops = .ok (t, as) →
      ∃ bytes, exCfg.serializeMap (.xorshift 16) mapFileEx t = .ok bytes := by
  intro hall
  obtain ⟨t, as, h1, h2⟩ := ovExSpilled
  obtain ⟨bytes, h3⟩ := hall ovExOps ovExOps_valid t as h1
  rw [C119_separate_foreign_memory_false mapFileEx_good h2 rfl] at h3
  cases h3

/-- two tables with different values for the key 850 and the same file -/
example : ∃ t t', t.lookup (sepMapOv exCfg (.xorshift 16) ovEx) 850 = .ok (some (850, 1)) ∧ t'.lookup (sepMapOv exCfg (.xorshift 16) ovEx) 850 = .ok (some (850, 2)) ∧
    exCfg.serializeMap (.xorshift 16) mapFileAll t = exCfg.serializeMap (.xorshift 16) mapFileAll t' := by
  obtain ⟨t, as, h1, h2⟩ := ovExSpilled
  obtain ⟨_, a, _, _, a3, a4⟩ := C119_separate_values_false (e := mapFileAll) exOK ovEx_good ovEx_fits ovExOps_valid h1 h2 (v := 1) rfl
  obtain ⟨_, b, _, _, b3, b4⟩ := C119_separate_values_false (e := mapFileAll) exOK ovEx_good ovEx_fits ovExOps_valid h1 h2 (v := 2) rfl
  exact ⟨a, b, a3, b3, a4.trans b4.symm⟩

/-- a table that has been used, with an empty overflow table, read into the table of the other examples -/
example : ∃ t as bytes t', Tab.run (sepMapOv exCfg (.xorshift 16) ovEx) (Tab.new (sepMapOv exCfg (.xorshift 16) ovEx) 10 20) [.insert 3 4, .insert 5 6, .erase 3] = .ok (t, as) ∧
    exCfg.serializeMap (.xorshift 16) mapFileEx t = .ok bytes ∧
    exCfg.deserializeMap (.xorshift 16) ovEx mapFileEx (Tab.new (sepMapOv exCfg (.xorshift 16) ovEx) 7 3) (bytes ++ [9]) = .ok (t', [9]) := by
  have h : (match Tab.run (sepMapOv exCfg (.xorshift 16) ovEx) (Tab.new (sepMapOv exCfg (.xorshift 16) ovEx) 10 20) [.insert 3 4, .insert 5 6, .erase 3] with
    | .ok (t, _) => t.ovf.items.isEmpty && t.size == 1
    | .error _ => false) = true := by decide +kernel
  cases h1 : Tab.run (sepMapOv exCfg (.xorshift 16) ovEx) (Tab.new (sepMapOv exCfg (.xorshift 16) ovEx) 10 20) [.insert 3 4, .insert 5 6, .erase 3] with
  | error e => rw [h1] at h; cases h
  | ok r =>
    rw [h1] at h
    simp only [Bool.and_eq_true, beq_iff_eq, List.isEmpty_iff] at h
    obtain ⟨bytes, e1, e2⟩ := C119_separate_map_file_partial exOK ovEx_good mapFileEx_good ovEx_fits (by decide +kernel) h1 h.1 (by omega)
    obtain ⟨t', f1, _⟩ := e2 (Tab.new (sepMapOv exCfg (.xorshift 16) ovEx) 7 3) [9]
    exact ⟨r.1, r.2, bytes, t', rfl, e1, f1⟩

/-! ## `group_chaining_table` -/

/-- the laws, with erasures as in a table with other arrays (C58) -/
theorem grp_ov_lawsE {g : GrpCfg} (h : GrpOK hk kw vw) (hc : c.good) (hf : OvFits c (fun v => v % 2 ^ vw)) (hsp : g.strict = true → sp = true) :
    Laws ((grpTable gc hk (mapOverflow c)).withErase (grpOps g).eraseAt) (grpParOv c sp hk kw vw) ∧ hk.grow kw 255 64 < 65 := by
  have hS := h.hash
  have h3 : 3 ≤ kw := by cases hk <;> exact hS.1
  obtain ⟨hi1, hi2⟩ := ini_bounds (I := 8) h3 (by omega)
  obtain ⟨h4, h5, h6, h7⟩ := HashKind.hashOK (maxE := 255) (cl := 64) hS hi1 hi2 (by omega) (by omega)
  exact ⟨laws_of (lawful_grpE gc g hsp).weaken (lawful_map c hc) h4 h.vw_pos h.vw_le (by simp [Cfg.withErase, grpTable]) (by simp [Cfg.withErase, grpTable])
      (by simp [Cfg.withErase, grpTable]) (by simp [Cfg.withErase, grpTable]) (fun x => Nat.mod_mod _ _) (fun x => Nat.mod_eq_of_lt (hf.wide x)) (show 2 ≤ kw by omega)
      (by simp [Cfg.withErase, grpTable]) rfl h5 h6, h7⟩

/-- the part of the file behind an empty overflow table -/
theorem grp_map_file (h : GrpOK hk kw vw) (hc : c.good) (hf : OvFits c (fun v => v % 2 ^ vw)) {t : Tab GrpStore MapOv} {l : List (Nat × Nat)}
    (hi : Inv (grpTable gc hk (mapOverflow c)) (grpParOv c gc.strict hk kw vw) t l) (h0 : t.ovf.items = []) (hsz : t.size < 2 ^ 64) :
    ∃ bytes, grpSerialize gc hk t.bare = .ok bytes ∧ ∀ (t0 : Tab GrpStore Unit) (rest : List Nat),
      ∃ u, grpDeserialize gc hk t0 (bytes ++ rest) = .ok (u, rest) ∧ u.kw = t.kw ∧ u.vw = t.vw ∧ u.elems = t.elems ∧ u.bpg = t.bpg ∧
        u.tb = (if t.elems = 0 then 0 else t.tb) ∧
        ∀ o n full, MapRep c o n [] full → (u.elems ≠ 0 → n = 2 ^ u.tb) →
          Inv (grpTable gc hk (mapOverflow c)) (grpParOv c false hk kw vw) (u.dress o) l := by
  have hC := h.coveredE (c := gc) (e := gc) (sp := gc.strict) id
  obtain ⟨L, _⟩ := grp_ov_lawsE (gc := gc) (sp := gc.strict) h hc hf (g := gc) id
  by_cases he : t.elems = 0
  · obtain ⟨hl0, h1, h2, h3, h4⟩ : l = [] ∧ t.kw = kw ∧ t.vw = vw ∧ 1 ≤ t.bpg ∧ t.bpg ≤ 64 := by
      rcases hi with ⟨h1, h2, h3, h4, h5, h6, rfl, hst, n, full, h7⟩ | ⟨cn, o, full, hl, hp⟩
      · exact ⟨rfl, h1, h2, h3, h4⟩
      · have h1 := hl.elems
        rw [he] at h1
        rw [List.eq_nil_of_length_eq_zero h1.symm] at hp
        exact ⟨hp.eq_nil, hl.tkw, hl.tvw, hl.bpg_pos, hl.bpg_le⟩
    subst hl0
    have hkw : kw ≤ 64 := L.kw_le
    have hvw : vw ≤ 64 := L.vw_le
    have he' : t.bare.elems = 0 := he
    refine ⟨_, by unfold grpSerialize; rw [if_pos he']; rfl, fun t0 rest => ?_⟩
    refine ⟨{ t0.clear (grpMap gc hk) with kw := t.kw, vw := t.vw, elems := 0, bpg := t.bpg }, ?_, rfl, rfl, he.symm, rfl, by rw [if_pos he]; rfl, ?_⟩
    · unfold grpDeserialize
      rw [he']
      simp only [Tab.bare, List.append_assoc, takeBytes_append _ _ (toBytes_length _ _), ok_bind, ofBytes1 (show t.kw < 256 by omega),
        ofBytes1 (show t.vw < 256 by omega), ofBytes8 (show 0 < 2 ^ 64 by omega), ofBytes1 (show t.bpg < 256 by omega),
        if_true, pure_eq_ok]
    · exact fun o n full hR _ => .inl ⟨h1, h2, h3, h4, rfl, rfl, rfl, rfl, n, full, hR⟩
  · rcases hi with ⟨_, _, _, _, _, h6, _⟩ | ⟨cn, o, full, hl, hp⟩
    · exact absurd h6 he
    · have ho : o = [] := MapRep.nil_of hl.orep h0
      subst ho
      obtain ⟨bytes, e1, e2⟩ := grpSerialize_rep (t := t.bare) hC.laws hl.tkw hl.tvw hl.bpg_pos hl.bpg_le hl.lo hl.hi hl.rep he hsz
      refine ⟨bytes, e1, fun t0 rest => ?_⟩
      obtain ⟨u, f1, f2, f3, f4, f5, f6, f7⟩ := e2 t0 rest
      have f2 : u.kw = t.kw := f2
      have f3 : u.vw = t.vw := f3
      have f4 : u.tb = t.tb := f4
      have f5 : u.elems = t.elems := f5
      have f6 : u.bpg = t.bpg := f6
      refine ⟨u, f1, f2, f3, f5, f6, by rw [if_neg he]; exact f4, fun o' n full' ho hn => .inr ⟨cn, [], full', ?_, ?_⟩⟩
      · have e4 : (u.dress o').tb = t.tb := f4
        have hd : (u.dress o').dim (grpTable gc hk (mapOverflow c)) = t.bare.dim (grpMap gc hk) := by
          simp only [Tab.dim, Tab.hash, Tab.dress, Tab.bare, grpMap, grpTable, f2, f3, f4, f6]
        have hn := hn (by rw [f5]; exact he)
        subst hn
        exact { tkw := f2.trans hl.tkw, tvw := f3.trans hl.tvw, bpg_pos := by show 1 ≤ u.bpg; rw [f6]; exact hl.bpg_pos,
                bpg_le := by show u.bpg ≤ 64; rw [f6]; exact hl.bpg_le, lo := by rw [e4]; exact hl.lo,
                hi := by rw [e4]; exact hl.hi, rep := by rw [hd]; exact f7, orep := ho, cok := by rw [e4]; exact hl.cok,
                ofull := by simp, vals := by rw [e4]; exact hl.vals, ovals := by simp,
                elems := by rw [e4]; exact f5.trans hl.elems }
      · rw [show (u.dress o').tb = t.tb from f4]; exact hp

/-- **C119**, true part for `group_chaining_table`; the table read has the same number of buckets if there are elements.  The further calls do not erase, or the words read behind the end of
an array are only unspecified (C58).  Missing: as for `separate_chaining_map`. -/
theorem C119_group_map_file_partial (h : GrpOK hk kw vw) (hc : c.good) (he : e.good) (hf : OvFits c (fun v => v % 2 ^ vw)) {ops : List MapOp}
    (hops : ∀ op ∈ ops, OvValid c (fun v => v % 2 ^ vw) hk 64 kw op) {t : Tab GrpStore MapOv} {as : List Ans}
    (hrun : Tab.run (grpTable gc hk (mapOverflow c)) (Tab.new (grpTable gc hk (mapOverflow c)) kw vw) ops = .ok (t, as)) (h0 : t.ovf.items = []) (hsz : t.size < 2 ^ 64) :
    ∃ bytes, grpSerializeMap gc hk e t = .ok bytes ∧ ∀ (t0 : Tab GrpStore MapOv) (rest : List Nat), ∃ t',
      grpDeserializeMap gc hk c e t0 (bytes ++ rest) = .ok (t', rest) ∧ t'.kw = t.kw ∧ t'.vw = t.vw ∧ t'.size = t.size ∧ t'.bpg = t.bpg ∧
      (t.size ≠ 0 → t'.bucketCount = t.bucketCount) ∧
      ∀ ops', (∀ op ∈ ops', OvValid c (fun v => v % 2 ^ vw) hk 64 kw op) → (gc.strict = false ∨ ∀ op ∈ ops', op.keeps = true) →
        ∃ t'', Tab.run (grpTable gc hk (mapOverflow c)) t' ops' =
          .ok (t'', (FMap.empty.after (fun v => v % 2 ^ vw) ops).run (fun v => v % 2 ^ vw) ops') := by
  have hz : c.val 0 = 0 % 2 ^ vw := by rw [Nat.zero_mod]; exact Nat.zero_mod _
  obtain ⟨L, hg⟩ := grp_ov_laws (gc := gc) h hc hf
  obtain ⟨t₁, l, r1, r2, r3⟩ := Tab.run_new L hg ops (fun op hop => ValidOp.opOK (P := grpParOv c gc.strict hk kw vw) L.hi_lt L.lo_pos (fun v hv => hv) hz (hops op hop))
  have : t₁ = t := congrArg Prod.fst (Except.ok.inj (r1.symm.trans hrun))
  subst t₁
  obtain ⟨bytes, e1, e2⟩ := grp_map_file h hc hf r2 h0 hsz
  refine ⟨toBytes 8 0 ++ bytes, by simp only [grpSerializeMap, MapOv.serialize_empty he h0, e1, ok_bind, pure_eq_ok], fun t0 rest => ?_⟩
  obtain ⟨u, f1, f2, f3, f5, fb, f4, f6⟩ := e2 t0.bare rest
  obtain ⟨o', w1, hi'⟩ : ∃ o' : MapOv, grpDeserializeMap gc hk c e t0 (toBytes 8 0 ++ bytes ++ rest) = .ok (u.dress o', rest) ∧
      Inv (grpTable gc hk (mapOverflow c)) (grpParOv c false hk kw vw) (u.dress o') l := by
    by_cases hu : u.elems = 0
    · refine ⟨{ (mapOverflow c).clear t0.ovf with count := c.grow ((mapOverflow c).clear t0.ovf).count 0 }, ?_, f6 _ 0 t0.ovf.bits ?_ (fun h => absurd hu h)⟩
      · simp only [grpDeserializeMap, List.append_assoc, MapOv.deserialize_empty, f1, ok_bind, if_pos hu]
        rfl
      · exact ⟨rfl, Nat.zero_le _, hc.grow_pos _ _, hc.grow_lt _ _, List.Perm.refl _, by simp, List.Pairwise.nil⟩
    · obtain ⟨o', full, o1, o2⟩ := map_read_rep hc (o := { (mapOverflow c).clear t0.ovf with count := c.grow ((mapOverflow c).clear t0.ovf).count 0 }) rfl (2 ^ u.tb)
      refine ⟨o', ?_, f6 _ _ _ o2 (fun _ => rfl)⟩
      simp only [grpDeserializeMap, List.append_assoc, MapOv.deserialize_empty, f1, ok_bind, if_neg hu]
      rw [o1, ok_bind]
      rfl
  refine ⟨_, w1, f2, f3, f5, fb, fun h0 => by have h0 : t.elems ≠ 0 := h0; show u.bucketCount = _; unfold Tab.bucketCount; rw [f4, if_neg h0], fun ops' hops' hk' => ?_⟩
  rcases hk' with hs | hks
  · obtain ⟨L', _⟩ := grp_ov_lawsE (gc := gc) (sp := false) h hc hf (g := gc) (by rw [hs]; exact id)
    have L' : Laws (grpTable gc hk (mapOverflow c)) (grpParOv c false hk kw vw) := L'
    obtain ⟨t'', _, q1, _⟩ := Tab.run_ok L' hg ops' hi' r3 (fun op hop => ValidOp.opOK L'.hi_lt L'.lo_pos (fun v hv => hv) hz (hops' op hop))
    exact ⟨t'', q1⟩
  · obtain ⟨L', _⟩ := grp_ov_lawsE (gc := gc) (sp := false) h hc hf (g := gc.flat) (by simp)
    obtain ⟨t'', _, q1, _⟩ := Tab.run_ok L' hg ops' (Inv_withErase.mpr hi') r3 (fun op hop => ValidOp.opOK L'.hi_lt L'.lo_pos (fun v hv => hv) hz (hops' op hop))
    rw [run_withErase ops' hks] at q1
    exact ⟨t'', q1⟩

/-- **C119** is false for `group_chaining_table`, too: foreign memory is accessed. -/
theorem C119_group_foreign_memory_false (he : e.good) {t : Tab GrpStore MapOv} {x : Nat × Nat} (hx : x ∈ t.ovf.items) (hp : e.peek x.1 e.kbytes = none) :
    grpSerializeMap gc hk e t = .error .undef := by
  simp only [grpSerializeMap, MapOv.serialize_fails he hx hp, error_bind]

/-- **C119** is false for `group_chaining_table`, too: the file does not depend on the values. -/
theorem C119_group_values_false (h : GrpOK hk kw vw) (hc : c.good) (hf : OvFits c (fun v => v % 2 ^ vw)) {ops : List MapOp}
    (hops : ∀ op ∈ ops, OvValid c (fun v => v % 2 ^ vw) hk 64 kw op) {t : Tab GrpStore MapOv} {as : List Ans}
    (hrun : Tab.run (grpTable gc hk (mapOverflow c)) (Tab.new (grpTable gc hk (mapOverflow c)) kw vw) ops = .ok (t, as)) {k y : Nat} (hx : (k, y) ∈ t.ovf.items) {v : Nat}
    (hv : v % 2 ^ c.vbits = v % 2 ^ vw) :
    ∃ n t', t.find (grpTable gc hk (mapOverflow c)) k = .ok n ∧ t.writeValue (grpTable gc hk (mapOverflow c)) n v = .ok t' ∧
      t'.lookup (grpTable gc hk (mapOverflow c)) k = .ok (some (k, v % 2 ^ vw)) ∧ grpSerializeMap gc hk e t' = grpSerializeMap gc hk e t := by
  obtain ⟨L, hg⟩ := grp_ov_laws (gc := gc) h hc hf
  obtain ⟨t₁, l, r1, r2, _⟩ := Tab.run_new L hg ops (fun op hop => ValidOp.opOK (P := grpParOv c gc.strict hk kw vw) L.hi_lt L.lo_pos (fun v hv => hv)
    (show c.val 0 = 0 % 2 ^ vw by rw [Nat.zero_mod]; exact Nat.zero_mod _) (hops op hop))
  have : t₁ = t := congrArg Prod.fst (Except.ok.inj (r1.symm.trans hrun))
  subst t₁
  obtain ⟨n, o', g1, g2, g3, g4, g5⟩ := spilled_write hc L rfl rfl r2 hx (v := v) hv
  refine ⟨n, _, g1, g2, g5, ?_⟩
  simp only [grpSerializeMap, MapOv.serialize_congr (e := e) g3 g4]
  rfl

/-- a group table that has been used -/
example : ∃ t as bytes t', Tab.run (grpTable grpEx (.xorshift 64) (mapOverflow ovEx)) (Tab.new (grpTable grpEx (.xorshift 64) (mapOverflow ovEx)) 11 13)
      [.insert 5 6, .insert 1000 7, .erase 5] = .ok (t, as) ∧ grpSerializeMap grpEx (.xorshift 64) mapFileEx t = .ok bytes ∧
    grpDeserializeMap grpEx (.xorshift 64) ovEx mapFileEx (Tab.new (grpTable grpEx (.xorshift 64) (mapOverflow ovEx)) 7 3) (bytes ++ [9]) = .ok (t', [9]) := by
  have h : (match Tab.run (grpTable grpEx (.xorshift 64) (mapOverflow ovEx)) (Tab.new (grpTable grpEx (.xorshift 64) (mapOverflow ovEx)) 11 13)
      [.insert 5 6, .insert 1000 7, .erase 5] with
    | .ok (t, _) => t.ovf.items.isEmpty && t.size == 1
    | .error _ => false) = true := by decide +kernel
  cases h1 : Tab.run (grpTable grpEx (.xorshift 64) (mapOverflow ovEx)) (Tab.new (grpTable grpEx (.xorshift 64) (mapOverflow ovEx)) 11 13)
      [.insert 5 6, .insert 1000 7, .erase 5] with
  | error e => rw [h1] at h; cases h
  | ok r =>
    rw [h1] at h
    simp only [Bool.and_eq_true, beq_iff_eq, List.isEmpty_iff] at h
    obtain ⟨bytes, e1, e2⟩ := C119_group_map_file_partial grpExOK ovEx_good mapFileEx_good ovEx_fits_grp (by decide +kernel) h1 h.1 (by omega)
    obtain ⟨t', f1, _⟩ := e2 (Tab.new (grpTable grpEx (.xorshift 64) (mapOverflow ovEx)) 7 3) [9]
    exact ⟨r.1, r.2, bytes, t', rfl, e1, f1⟩

/-! ## A group table whose overflow table is in use

More than 255 keys of the same group cannot be evaluated, so the example is reasoned about. -/

/-- `map_overflow`, perhaps with assertions -/
def LikeMap (c : MapEnv) (ov : OverflowOps MapOv) : Prop :=
  (∀ o, ov.size o = o.items.length ∧ ov.capacity o = o.count) ∧ ∀ o b k v r, ov.insert o b k v = .ok r → o.insert c b k v = .ok r

theorem likeMap_release : LikeMap c (mapOverflow c) := ⟨fun _ => ⟨rfl, rfl⟩, fun _ _ _ _ _ h => h⟩

/-- an insertion either uses the empty overflow table or leaves it and the dimensions as they are -/
theorem map_insert_keeps {S : Type} {g : Cfg S MapOv} (hov : LikeMap c g.ov) (hc : c.good) {f : Nat} {t t' : Tab S MapOv} {k v : Nat} {n : Nav}
    (htb : t.tb ≠ 0) (h0 : t.ovf.items = []) (h1 : 0 < t.ovf.count) (h2 : t.ovf.count < NPOS) (h : t.findOrInsert g (f + 1) k v = .ok (t', n)) :
    t'.ovf.items ≠ [] ∨ (t'.tb = t.tb ∧ t'.bpg = t.bpg ∧ t'.ovf = t.ovf) := by
  unfold Tab.findOrInsert at h
  obtain ⟨_, _, h⟩ := bind_eq_ok h
  rw [if_neg htb] at h
  simp only [ok_bind] at h
  obtain ⟨qb, _, h⟩ := bind_eq_ok h
  obtain ⟨_, _, h⟩ := bind_eq_ok h
  obtain ⟨pos, _, h⟩ := bind_eq_ok h
  split at h
  · cases h; exact .inr ⟨rfl, rfl, rfl⟩
  obtain ⟨cs, _, h⟩ := bind_eq_ok h
  obtain ⟨op, _, h⟩ := bind_eq_ok h
  split at h
  · cases h; exact .inr ⟨rfl, rfl, rfl⟩
  obtain ⟨fl, _, h⟩ := bind_eq_ok h
  split at h
  · have hs : g.ov.size t.ovf < g.ov.capacity t.ovf := by
      rw [(hov.1 _).1, (hov.1 _).2, h0]
      exact h1
    rw [if_pos hs] at h
    obtain ⟨⟨o, p⟩, h3, h⟩ := bind_eq_ok h
    have h3 := hov.2 _ _ _ _ _ h3
    obtain ⟨hp, ho⟩ : p ≠ NPOS ∧ o.items ≠ [] := by
      simp only [MapOv.insert, MapOv.head, h0, List.find?_nil, MapOv.put, List.any_nil, List.length_nil, if_pos (show 0 + 1 ≤ t.ovf.count from h1)] at h3
      split at h3
      · cases h3
        exact ⟨Nat.ne_of_lt (Nat.lt_trans (hc.bkt_lt _ _ h1) h2), by simp⟩
      · cases h3
    simp only [if_pos hp] at h
    cases h
    exact .inl ho
  · obtain ⟨m, _, h⟩ := bind_eq_ok h
    obtain ⟨s, _, h⟩ := bind_eq_ok h
    cases h; exact .inr ⟨rfl, rfl, rfl⟩

/-- several insertions -/
theorem map_inserts_keep {S : Type} {g : Cfg S MapOv} (hov : LikeMap c g.ov) (hc : c.good) (v : Nat) : ∀ (ks : List Nat) {t t' : Tab S MapOv} {as : List Ans},
    t.tb ≠ 0 → t.ovf.items = [] → 0 < t.ovf.count → t.ovf.count < NPOS → Tab.run g t (ks.map (fun k => .insert k v)) = .ok (t', as) →
    (∃ ks' : List Nat, (∀ k ∈ ks', k ∈ ks) ∧ ∃ u bs, Tab.run g t (ks'.map (fun k => .insert k v)) = .ok (u, bs) ∧ u.ovf.items ≠ []) ∨
      (t'.tb = t.tb ∧ t'.bpg = t.bpg ∧ t'.ovf = t.ovf) := by
  intro ks
  induction ks with
  | nil => intro t t' as _ _ _ _ h; cases h; exact .inr ⟨rfl, rfl, rfl⟩
  | cons k ks ih =>
    intro t t' as htb h0 c1 c2 h
    rw [List.map_cons, Tab.run] at h
    obtain ⟨⟨t1, a⟩, h1, h2⟩ := bind_eq_ok h
    obtain ⟨⟨t2, as2⟩, h3, h4⟩ := bind_eq_ok h2
    cases h4
    have hstep := h1
    simp only [Tab.step] at h1
    obtain ⟨⟨t3, n⟩, h5, h1⟩ := bind_eq_ok h1
    obtain ⟨_, _, h1⟩ := bind_eq_ok h1
    obtain ⟨_, _, h1⟩ := bind_eq_ok h1
    have e1 : t3 = t1 := congrArg Prod.fst (Except.ok.inj h1)
    subst e1
    have h3 : Tab.run g t3 (ks.map (fun k => .insert k v)) = .ok (t', as2) := h3
    rcases map_insert_keeps hov hc htb h0 c1 c2 h5 with hn | ⟨k1, k2, k3⟩
    · refine .inl ⟨[k], by simp, t3, [a], ?_, hn⟩
      rw [List.map_cons, List.map_nil, Tab.run, hstep]
      rfl
    · rcases ih (by rw [k1]; exact htb) (by rw [k3]; exact h0) (by rw [k3]; exact c1) (by rw [k3]; exact c2) h3 with ⟨ks', g1, u, bs, g2, g3⟩ | ⟨r1, r2, r3⟩
      · refine .inl ⟨k :: ks', ?_, u, a :: bs, ?_, g3⟩
        · intro x hx
          rcases List.mem_cons.mp hx with hx | hx
          · rw [hx]; exact List.mem_cons_self
          · exact List.mem_cons_of_mem _ (g1 x hx)
        · rw [List.map_cons, Tab.run, hstep]
          simp only [ok_bind, g2]
          rfl
      · exact .inr ⟨r1.trans k1, r2.trans k2, r3.trans k3⟩

theorem spill_ops_valid : ∀ op ∈ spillOps, OvValid ovEx (fun v => v % 2 ^ 13) (.xorshift 64) 64 11 op := by decide +kernel

/-- insertions after which an element is in the overflow table of a `group_chaining_table` -/
theorem map_spill_ex : ∃ ops, (∀ op ∈ ops, OvValid ovEx (fun v => v % 2 ^ 13) (.xorshift 64) 64 11 op) ∧
    ∃ t as, Tab.run (grpTable grpEx (.xorshift 64) (mapOverflow ovEx)) (Tab.new (grpTable grpEx (.xorshift 64) (mapOverflow ovEx)) 11 13) ops = .ok (t, as) ∧
      t.ovf.items ≠ [] := by
  obtain ⟨L, hg⟩ := grp_ov_laws (gc := grpEx) grpExOK ovEx_good ovEx_fits_grp
  obtain ⟨t, l, hrun, hi, ha⟩ := Tab.run_new L hg spillOps (fun op hop => ValidOp.opOK (P := grpParOv ovEx grpEx.strict (.xorshift 64) 11 13) L.hi_lt L.lo_pos
    (fun v hv => hv) rfl (spill_ops_valid op hop))
  have hsz : t.size = 256 := by
    have h1 := Sem.size (P := grpParOv ovEx grpEx.strict (.xorshift 64) 11 13) ⟨l, hi, ha⟩
    rw [h1]
    decide +kernel
  obtain ⟨ks, hks⟩ : ∃ ks, spillKeys = 1 :: ks := by
    have h1 : (match spillKeys with | [] => false | k :: _ => k == 1) = true := by decide +kernel
    cases e : spillKeys with
    | nil => rw [e] at h1; cases h1
    | cons k ks =>
      rw [e] at h1
      exact ⟨ks, by rw [beq_iff_eq.mp h1]⟩
  have hone : (match Tab.step (grpTable grpEx (.xorshift 64) (mapOverflow ovEx)) (Tab.new (grpTable grpEx (.xorshift 64) (mapOverflow ovEx)) 11 13) (.insert 1 5) with
      | .ok (t1, _) => t1.tb == 3 && t1.bpg == 3 && t1.ovf.items.isEmpty && decide (0 < t1.ovf.count) && decide (t1.ovf.count < NPOS)
      | .error _ => false) = true := by decide +kernel
  have hrun' := hrun
  rw [spillOps, hks, List.map_cons, Tab.run] at hrun'
  obtain ⟨⟨t1, a⟩, h1, h2⟩ := bind_eq_ok hrun'
  obtain ⟨⟨t2, as⟩, h3, h4⟩ := bind_eq_ok h2
  have h4 : t2 = t := congrArg Prod.fst (Except.ok.inj h4)
  subst h4
  have h1 : Tab.step (grpTable grpEx (.xorshift 64) (mapOverflow ovEx)) (Tab.new (grpTable grpEx (.xorshift 64) (mapOverflow ovEx)) 11 13) (.insert 1 5) = .ok (t1, a) := h1
  rw [h1] at hone
  simp only [Bool.and_eq_true, beq_iff_eq, List.isEmpty_iff, decide_eq_true_eq] at hone
  obtain ⟨⟨⟨⟨o1, o2⟩, o3⟩, o4⟩, o5⟩ := hone
  have h3 : Tab.run (grpTable grpEx (.xorshift 64) (mapOverflow ovEx)) t1 (ks.map (fun k => .insert k 5)) = .ok (t2, as) := h3
  rcases map_inserts_keep (g := grpTable grpEx (.xorshift 64) (mapOverflow ovEx)) likeMap_release ovEx_good 5 ks (by rw [o1]; decide) o3 o4 o5 h3 with
    ⟨ks', g1, u, bs, g2, g3⟩ | ⟨r1, r2, r3⟩
  · refine ⟨.insert 1 5 :: ks'.map (fun k => .insert k 5), ?_, u, a :: bs, ?_, g3⟩
    · intro op hop
      refine spill_ops_valid op ?_
      rw [spillOps, hks, List.map_cons]
      rcases List.mem_cons.mp hop with hop | hop
      · rw [hop]; exact List.mem_cons_self
      · obtain ⟨k, hk1, hk2⟩ := List.mem_map.mp hop
        rw [← hk2]
        exact List.mem_cons_of_mem _ (List.mem_map_of_mem (g1 k hk1))
    · rw [Tab.run, h1]
      simp only [ok_bind, g2]
      rfl
  · refine ⟨spillOps, spill_ops_valid, t2, _, hrun, fun h0 => ?_⟩
    rcases hi with ⟨_, _, _, _, _, h6, _⟩ | ⟨cn, o, full, hl, hp⟩
    · have : t2.size = 0 := h6
      omega
    have ho : o = [] := MapRep.nil_of hl.orep h0
    subst ho
    have := group_crowd L (kw := 11) rfl rfl hl hp (by
      intro e he
      rw [r1, o1, r2, o2]
      have := (ha.get e.1 e.2).mpr he
      rw [spillOps] at this
      rcases after_inserts _ this with h | h
      · exact spillKeys_bucket _ h
      · cases h)
    omega

/-- so the hypotheses of `C119_group_foreign_memory_false` and `C119_group_values_false` are met -/
example : ∃ t : Tab GrpStore MapOv, (∃ ops as, Tab.run (grpTable grpEx (.xorshift 64) (mapOverflow ovEx)) (Tab.new (grpTable grpEx (.xorshift 64) (mapOverflow ovEx)) 11 13) ops =
      .ok (t, as)) ∧ grpSerializeMap grpEx (.xorshift 64) { mapFileEx with peek := fun _ _ => none } t = .error .undef ∧
    ∃ k t', t'.lookup (grpTable grpEx (.xorshift 64) (mapOverflow ovEx)) k = .ok (some (k, 77)) ∧
      grpSerializeMap grpEx (.xorshift 64) mapFileAll t' = grpSerializeMap grpEx (.xorshift 64) mapFileAll t := by
  obtain ⟨ops, h1, t, as, h2, h3⟩ := map_spill_ex
  obtain ⟨x, hx⟩ := List.exists_mem_of_ne_nil _ h3
  obtain ⟨_, t', _, _, g1, g2⟩ := C119_group_values_false (e := mapFileAll) grpExOK ovEx_good ovEx_fits_grp h1 h2 hx (v := 77) rfl
  exact ⟨t, ⟨ops, as, h2⟩, C119_group_foreign_memory_false (e := { mapFileEx with peek := fun _ _ => none }) mapFileEx_good hx rfl, x.1, t', g1, g2⟩

end SC
