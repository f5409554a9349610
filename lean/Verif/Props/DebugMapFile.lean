import Verif.Sep.DebugSerialMap
import Verif.Props.DebugOverflow
import Verif.Props.DebugArraySerial
import Verif.Props.MapTableSerial
/-!
# Files of debug builds with `map_overflow` (C131)
-/
namespace SC

variable {KB VB : Type} {k : DbgCfg KB} {vops : BucketOps VB} {vnull : VB → Bool} {strat : Strategy} {maxBucket : Nat}
  {hk : HashKind} {kbits vbits : Nat} {tr : Nat → Nat → Nat} {W kw vw : Nat} {c : MapEnv} {e : MapFileEnv}
  {KRep : DbgB KB → Nat → Nat → List Nat → Prop} {VRep : VB → Nat → Nat → List Nat → Prop}

/-- the parameters of the correctness argument -/
abbrev dbgParMap (c : MapEnv) (k : DbgCfg KB) (vops : BucketOps VB) (vnull : VB → Bool) (strat : Strategy) (maxBucket : Nat) (hk : HashKind) (kbits : Nat)
    (KRep : DbgB KB → Nat → Nat → List Nat → Prop) (VRep : VB → Nat → Nat → List Nat → Prop) (tr : Nat → Nat → Nat) (W kw vw : Nat) :
    Par (SepDbg (DbgB KB) VB) MapOv :=
  (sepDbgPar (dbgCfg k vops vnull strat maxBucket hk kbits) hk KRep VRep tr false W kw vw).setOv (MapRep c)

/-- the table without the overflow table and its elements -/
theorem live_bare {S : Type} {g : Cfg S Unit} {P : Par S Unit} {ov : OverflowOps MapOv} (hD : P.RepO = DummyRep) {t : Tab S MapOv} {cn : Cont}
    {o : List (Nat × Nat × Nat)} {full : Nat → Bool} (hl : Live (g.setOv ov) (P.setOv (MapRep c)) t cn o full) :
    Live g P { t.bare with elems := (stored (g.hash P.kw) t.tb cn).length } cn [] (fun _ => false) ∧
      t.elems = (stored (g.hash P.kw) t.tb cn).length + t.ovf.items.length := by
  have hR : MapRep c t.ovf (2 ^ t.tb) o full := hl.orep
  constructor
  · exact
      { tkw := hl.tkw, tvw := hl.tvw, bpg_pos := hl.bpg_pos, bpg_le := hl.bpg_le, lo := hl.lo, hi := hl.hi, rep := hl.rep,
        orep := by rw [hD]; exact ⟨rfl, rfl⟩, cok := ⟨hl.cok.src, hl.cok.nodup, by simp, by simp⟩, ofull := by simp, vals := hl.vals, ovals := by simp,
        elems := by unfold ents; rw [List.map_nil, List.append_nil]; rfl }
  · rw [hl.elems, ← hR.perm.length_eq]
    unfold ents
    simp only [List.length_append, List.length_map]
    rfl

theorem setOv_bare {S : Type} {g : Cfg S Unit} {P : Par S Unit} {ov : OverflowOps MapOv} (hD : P.RepO = DummyRep)
    {t : Tab S MapOv} {l : List (Nat × Nat)} (hi : Inv (g.setOv ov) (P.setOv (MapRep c)) t l) :
    ∃ n l0, Inv g P { t.bare with elems := n } l0 ∧ t.elems = n + t.ovf.items.length ∧ (t.ovf.items = [] → l0 = l) := by
  rcases hi with ⟨h1, h2, h3, h4, h5, h6, rfl, h8, n, full, h7⟩ | ⟨cn, o, full, hl, hp⟩
  · have h7 : MapRep c t.ovf n [] full := h7
    refine ⟨0, [], .inl ⟨h1, h2, h3, h4, h5, rfl, rfl, h8, 0, fun _ => false, by rw [hD]; exact ⟨rfl, rfl⟩⟩, ?_, fun _ => rfl⟩
    rw [h6, ← h7.perm.length_eq]; rfl
  · have hR : MapRep c t.ovf (2 ^ t.tb) o full := hl.orep
    obtain ⟨hL, he⟩ := live_bare hD hl
    by_cases h0 : t.ovf.items = []
    · have ho : o = [] := hR.nil_of h0
      subst ho
      exact ⟨_, l, .inr ⟨cn, [], _, hL, hp⟩, he, fun _ => rfl⟩
    · exact ⟨_, _, .inr ⟨cn, [], _, hL, List.Perm.refl _⟩, he, fun h => absurd h h0⟩

/-- a table with an element in the overflow table has buckets; fewer elements are in them than `m_elements` says -/
theorem setOv_bare_live {S : Type} {g : Cfg S Unit} {P : Par S Unit} {ov : OverflowOps MapOv} (hD : P.RepO = DummyRep)
    {t : Tab S MapOv} {l : List (Nat × Nat)} (hi : Inv (g.setOv ov) (P.setOv (MapRep c)) t l) (h0 : t.ovf.items ≠ []) :
    ∃ n cn, Live g P { t.bare with elems := n } cn [] (fun _ => false) ∧ n < t.elems := by
  have hpos : 0 < t.ovf.items.length := List.length_pos_iff.mpr h0
  rcases hi with ⟨_, _, _, _, _, _, rfl, _, n, full, h7⟩ | ⟨cn, o, full, hl, _⟩
  · have h7 : MapRep c t.ovf n [] full := h7
    have := h7.perm.length_eq
    simp only [List.map_nil, List.length_nil] at this
    omega
  · obtain ⟨hL, he⟩ := live_bare hD hl
    exact ⟨_, cn, hL, by omega⟩

/-- the other way round; the number of marks matters only if there are buckets -/
theorem setOv_dress {S : Type} {g : Cfg S Unit} {P : Par S Unit} {ov : OverflowOps MapOv} (hD : P.RepO = DummyRep) {u : Tab S Unit} {l : List (Nat × Nat)}
    {o' : MapOv} {full' : Nat → Bool} {n : Nat} (hu : Inv g P u l) (ho : MapRep c o' n [] full') (hn : u.tb = 0 ∧ 0 < P.lo ∨ n = 2 ^ u.tb) :
    Inv (g.setOv ov) (P.setOv (MapRep c)) (u.dress o') l := by
  rcases hu with ⟨h1, h2, h3, h4, h5, h6, rfl, h8, _⟩ | ⟨cn, o, full, hl, hp⟩
  · exact .inl ⟨h1, h2, h3, h4, h5, h6, rfl, h8, _, _, ho⟩
  · have hn : n = 2 ^ u.tb := by
      rcases hn with hn | hn
      · have := hl.lo; omega
      · exact hn
    subst hn
    have hoe : o = [] := by
      have := hl.orep
      rw [hD] at this
      exact this.1
    subst hoe
    refine .inr ⟨cn, [], full', ?_, hp⟩
    exact { tkw := hl.tkw, tvw := hl.tvw, bpg_pos := hl.bpg_pos, bpg_le := hl.bpg_le, lo := hl.lo, hi := hl.hi, rep := hl.rep,
            orep := ho, cok := hl.cok, ofull := by simp, vals := hl.vals, ovals := by simp, elems := hl.elems }

/-- what is known after a history, in the form needed for files -/
theorem dbg_map_run (L0 : SepDbgLaws (dbgCfg k vops vnull strat maxBucket hk kbits) hk vbits tr false W kw vw KRep VRep) (hc : c.good) (hr : c.roomy)
    (hf : DbgFits c (tr vw) vw) :
    Laws (dbgMapOv k vops vnull strat maxBucket hk kbits c) (dbgParMap c k vops vnull strat maxBucket hk kbits KRep VRep tr W kw vw) ∧
      ∀ op, DbgValid strat hk W kw vw op → OpOK (dbgParMap c k vops vnull strat maxBucket hk kbits KRep VRep tr W kw vw) op := by
  have L : Laws (dbgMapOv k vops vnull strat maxBucket hk kbits c) (dbgParMap c k vops vnull strat maxBucket hk kbits KRep VRep tr W kw vw) :=
    L0.laws.setOv (dbg_ov_lawful hc hr hf)
  refine ⟨L, fun op hop => ?_⟩
  obtain ⟨v1, v2⟩ := hop
  refine ValidOp.opOK (vals := fun v => v < 2 ^ vw) L.hi_lt L.lo_pos (fun v hv => fit_iff.mpr hv) (fit_iff.mpr (Nat.two_pow_pos _)) v1 ?_
  by_cases hs : strat = .arbitrary
  · exact .inl (v2 hs)
  · exact .inr (decide_eq_true hs)

/-! ## C131 -/

/-- **C131**, true part: after any calls that leave the overflow table empty, `serialize` fails no assertion; neither does `deserialize`, whatever
table is read into and whatever follows in the stream; the table read has the same widths, `size()` and `bucket_count()`, and every further sequence of
calls, in which elements may spill, fails no assertion and gives the answers of a finite map with the contents of the one written.  (With
`arbitrary_resize` the table must have buckets, see C95.)  Missing: tables with elements in the overflow table, see `C131_debug_read_false` and
`C131_debug_foreign_memory_false`. -/
theorem C131_debug_map_file_partial (h : SepDbgTabOK k vops vnull maxBucket hk kbits vbits tr W kw vw) (hc : c.good) (hr : c.roomy) (he : e.good)
    (hf : DbgFits c (tr vw) vw) {ops : List MapOp} (hops : ∀ op ∈ ops, DbgValid strat hk W kw vw op) {t : Tab (SepDbg (DbgB KB) VB) MapOv} {as : List Ans}
    (hrun : Tab.run (dbgMapOv k vops vnull strat maxBucket hk kbits c) (Tab.new (dbgMapOv k vops vnull strat maxBucket hk kbits c) kw vw) ops = .ok (t, as))
    (hsz : t.size < 2 ^ 64) (h0 : t.ovf.items = []) :
    ∃ bytes, (dbgCfg k vops vnull strat maxBucket hk kbits).serializeMap e t = .ok bytes ∧
      ((strat = .arbitrary → t.bucketCount ≠ 0) → ∀ t0 rest, ∃ t',
        (dbgCfg k vops vnull strat maxBucket hk kbits).deserializeMap hk c e t0 (bytes ++ rest) = .ok (t', rest) ∧ t'.kw = t.kw ∧
        t'.vw = t.vw ∧ t'.size = t.size ∧ t'.bucketCount = t.bucketCount ∧
        ∀ ops', (∀ op ∈ ops', DbgValid strat hk W kw vw op) →
          ∃ t'', Tab.run (dbgMapOv k vops vnull strat maxBucket hk kbits c) t' ops' = .ok (t'', (FMap.empty.after (tr vw) ops).run (tr vw) ops')) := by
  obtain ⟨KRep, VRep, L0⟩ := h.serial strat false
  obtain ⟨L, hv⟩ := dbg_map_run L0 hc hr hf
  obtain ⟨t₁, l, r1, hi, ha⟩ := Tab.run_new L L0.grow ops (fun op hop => hv op (hops op hop))
  have ha : Abs l (FMap.empty.after (fitNorm tr vw) ops) := ha
  rw [(FMap.run_congr (f := fitNorm tr vw) (g := tr vw) (fit_eq (Nat.two_pow_pos _)) (fun v hv => fit_eq hv) ops FMap.empty
    (fun op hop => (hops op hop).1)).2] at ha
  have : t₁ = t := congrArg Prod.fst (Except.ok.inj (r1.symm.trans hrun))
  subst t₁
  obtain ⟨n, l0, hb, hn, hl0⟩ := setOv_bare rfl hi
  have hsz' : t.elems < 2 ^ 64 := hsz
  rw [h0, List.length_nil, Nat.add_zero] at hn
  obtain ⟨bytes, e1, e2⟩ := dbgSerialize_ok L0 rfl hb (show n < 2 ^ 64 by omega)
  subst hn
  have e1 : (dbgCfg k vops vnull strat maxBucket hk kbits).serialize t.bare = .ok bytes := e1
  obtain rfl := hl0 h0
  refine ⟨toBytes 8 0 ++ bytes, by simp only [SepDbgCfg.serializeMap, MapOv.serialize_empty he h0, e1, ok_bind, pure_eq_ok], fun hbk t0 rest => ?_⟩
  obtain ⟨u, f1, f2, f3⟩ := e2 hbk t0.bare rest
  have f3 : u.tb = t.tb := f3
  obtain ⟨o', full, o1, o2⟩ := map_read_rep hc (o := { (mapOverflow c).clear t0.ovf with count := c.grow ((mapOverflow c).clear t0.ovf).count 0 }) rfl (2 ^ u.tb)
  have o1' : (mapOverflowDbg c).resizeBuckets { (mapOverflowDbg c).clear t0.ovf with count := c.grow ((mapOverflowDbg c).clear t0.ovf).count 0 } (2 ^ u.tb) = .ok o' := by
    have hcnt : 2 ^ u.tb ≤ o'.count := by
      cases o1
      refine hr _ _ ?_
      have h7 : u.tb < 64 := by
        rcases f2 with ⟨_, _, _, _, h5, _⟩ | ⟨cn, o, full, hl, _⟩
        · omega
        · exact Nat.lt_of_le_of_lt hl.hi L0.laws.hi_lt
      have := (Nat.pow_le_pow_iff_right (a := 2) (by omega)).mpr (show u.tb ≤ 63 by omega)
      have e : NPOS = 2 ^ 64 - 1 := rfl
      omega
    show ((mapOverflow c).resizeBuckets { (mapOverflow c).clear t0.ovf with count := c.grow ((mapOverflow c).clear t0.ovf).count 0 } (2 ^ u.tb) >>= _) = _
    rw [o1, ok_bind, ddcheck_ok hcnt, ok_bind]
    rfl
  have hu := setOv_dress (ov := mapOverflowDbg c) rfl f2 o2 (.inr rfl)
  have hS : Sem (dbgMapOv k vops vnull strat maxBucket hk kbits c) (dbgParMap c k vops vnull strat maxBucket hk kbits KRep VRep tr W kw vw)
    (u.dress o') _ := ⟨_, hu, ha⟩
  have hS0 : Sem (dbgMapOv k vops vnull strat maxBucket hk kbits c) (dbgParMap c k vops vnull strat maxBucket hk kbits KRep VRep tr W kw vw) t _ := ⟨_, hi, ha⟩
  refine ⟨u.dress o', ?_, hS.widths.1.trans hS0.widths.1.symm, hS.widths.2.trans hS0.widths.2.symm, hS.size.trans hS0.size.symm, ?_, fun ops' hops' => ?_⟩
  · simp only [SepDbgCfg.deserializeMap, List.append_assoc, MapOv.deserialize_empty, f1, ok_bind]
    rw [o1', ok_bind]
    rfl
  · show u.bucketCount = _
    unfold Tab.bucketCount
    rw [f3]
  · obtain ⟨t'', _, q1, _⟩ := Tab.run_ok L L0.grow ops' hu ha (fun op hop => hv op (hops' op hop))
    have e := (FMap.run_congr (f := fitNorm tr vw) (g := tr vw) (fit_eq (Nat.two_pow_pos _)) (fun v hv => fit_eq hv) ops' (FMap.empty.after (tr vw) ops)
      (fun op hop => (hops' op hop).1)).1
    exact ⟨t'', by rw [← e]; exact q1⟩

/-- **C131** is false: whenever an element is in the overflow table, and the keys there happen to be addresses that can be read, so that `serialize`
writes something, the assertion at the end of `deserialize` fails, whatever table is read into: it compares `m_elements` with the number of elements in the
buckets. -/
theorem C131_debug_read_false (h : SepDbgTabOK k vops vnull maxBucket hk kbits vbits tr W kw vw) (hc : c.good) (hr : c.roomy) (he : e.good)
    (hkv : e.kbytes = e.vbytes) (hp : ∀ a s, e.peek a e.kbytes = some s → s.length = e.kbytes)
    (hf : DbgFits c (tr vw) vw) {ops : List MapOp} (hops : ∀ op ∈ ops, DbgValid strat hk W kw vw op) {t : Tab (SepDbg (DbgB KB) VB) MapOv} {as : List Ans}
    (hrun : Tab.run (dbgMapOv k vops vnull strat maxBucket hk kbits c) (Tab.new (dbgMapOv k vops vnull strat maxBucket hk kbits c) kw vw) ops = .ok (t, as))
    (hsz : t.size < 2 ^ 64) (h0 : t.ovf.items ≠ []) {bytes : List Nat}
    (hser : (dbgCfg k vops vnull strat maxBucket hk kbits).serializeMap e t = .ok bytes) (t0 : Tab (SepDbg (DbgB KB) VB) MapOv) (rest : List Nat) :
    (dbgCfg k vops vnull strat maxBucket hk kbits).deserializeMap hk c e t0 (bytes ++ rest) = .error .exc := by
  obtain ⟨KRep, VRep, L0⟩ := h.serial strat false
  obtain ⟨L, hv⟩ := dbg_map_run L0 hc hr hf
  obtain ⟨t₁, l, r1, hi, _⟩ := Tab.run_new L L0.grow ops (fun op hop => hv op (hops op hop))
  have : t₁ = t := congrArg Prod.fst (Except.ok.inj (r1.symm.trans hrun))
  subst t₁
  obtain ⟨n, l0, hb, hn, _⟩ := setOv_bare rfl hi
  have hsz' : t.elems < 2 ^ 64 := hsz
  have hpos : 0 < t.ovf.items.length := List.length_pos_iff.mpr h0
  obtain ⟨b1, e1, e2⟩ := dbgSerialize_ok L0 rfl hb (show n < 2 ^ 64 by omega)
  obtain ⟨r, e3, e4⟩ := dbgSer_elems e1
  have hlive : t.bare.bucketCount ≠ 0 := by
    rcases hi with ⟨_, _, _, _, _, _, _, _, m, full, h7⟩ | ⟨cn, o, full, hl, _⟩
    · have h7 : MapRep c t.ovf m [] full := h7
      have := h7.perm.length_eq
      simp only [List.map_nil, List.length_nil] at this
      omega
    · have := hl.bc L
      have h2 := Nat.two_pow_pos t.tb
      show t.bucketCount ≠ 0
      omega
  unfold SepDbgCfg.serializeMap at hser
  obtain ⟨ob, s1, hser⟩ := bind_eq_ok hser
  rw [e4, ok_bind] at hser
  cases hser
  obtain ⟨t', f1, _⟩ := e2 (fun _ => hlive) t0.bare rest
  rw [e3] at f1
  simp only [List.append_assoc] at f1 ⊢
  obtain ⟨o', ho⟩ := MapOv.serialize_consumed (c := c) he hkv hp (by omega) s1 ((mapOverflowDbg c).clear t0.ovf)
    (toBytes 1 t.bare.kw ++ (toBytes 1 t.bare.vw ++ (toBytes 1 t.bare.tb ++ (toBytes 8 t.bare.elems ++ (r ++ rest)))))
  have := dbgDeser_elems (m := t.bare.elems) (show n < 2 ^ 64 by omega) hsz' f1 (show t.elems ≠ n by omega)
  unfold SepDbgCfg.deserializeMap
  rw [ho, ok_bind]
  dsimp only
  rw [this, error_bind]

/-- **C131** is false: if the key of an element in the overflow table is not an address from which the process may read, `serialize` is undefined also in a
debug build. -/
theorem C131_debug_foreign_memory_false (he : e.good) {t : Tab (SepDbg (DbgB KB) VB) MapOv} {x : Nat × Nat} (hx : x ∈ t.ovf.items)
    (hp : e.peek x.1 e.kbytes = none) : (dbgCfg k vops vnull strat maxBucket hk kbits).serializeMap e t = .error .undef := by
  simp only [SepDbgCfg.serializeMap, MapOv.serialize_fails he hx hp, error_bind]

/-! ## Example -/

/-- **C131** is false, witness: 59 pairs, four of them in the overflow table; if keys can be read as addresses, the file cannot be read, and if not, there
is no file -/
theorem C131_debug_file_false : ∃ t as bytes, Tab.run dbgOvEx (Tab.new dbgOvEx 10 20) ovExOps = .ok (t, as) ∧ t.size = 59 ∧
    dbgArrCfg.serializeMap mapFileAll t = .ok bytes ∧
    (∀ t0 rest, dbgArrCfg.deserializeMap (.xorshift 16) ovEx mapFileAll t0 (bytes ++ rest) = .error .exc) ∧
    dbgArrCfg.serializeMap mapFileEx t = .error .undef := by
  have hx : (match Tab.run dbgOvEx (Tab.new dbgOvEx 10 20) ovExOps with
    | .ok (t, _) => decide (t.size = 59 ∧ (850, 1050) ∈ t.ovf.items) && (match dbgArrCfg.serializeMap mapFileAll t with | .ok _ => true | .error _ => false)
    | .error _ => false) = true := by decide +kernel
  split at hx
  case h_2 => cases hx
  next t as hrun =>
  obtain ⟨hx, hy⟩ := Bool.and_eq_true_iff.mp hx
  obtain ⟨x1, x2⟩ := of_decide_eq_true hx
  split at hy
  case h_2 => cases hy
  next bytes hb =>
  refine ⟨t, as, bytes, hrun, x1, hb, fun t0 rest => ?_, C131_debug_foreign_memory_false mapFileEx_good x2 rfl⟩
  exact C131_debug_read_false dbgExOK ovEx_good ovEx_roomy (e := mapFileAll) (fun _ ks => List.reverse_perm ks) rfl
    (fun a s hs => by cases hs; exact toBytes_length _ _) ovEx_dbgFits dbgOvExOps_valid hrun (by rw [x1]; decide)
    (fun h => by rw [h] at x2; cases x2) hb t0 rest

/-- a table with an empty overflow table, read into another one, and used further -/
example : ∃ t as bytes t', Tab.run dbgOvEx (Tab.new dbgOvEx 10 20) [.insert 3 1, .insert 20 1, .insert 37 1] = .ok (t, as) ∧
    dbgArrCfg.serializeMap mapFileEx t = .ok bytes ∧
    dbgArrCfg.deserializeMap (.xorshift 16) ovEx mapFileEx (Tab.new dbgOvEx 7 3) (bytes ++ [7]) = .ok (t', [7]) ∧
    ∃ t'', Tab.run dbgOvEx t' ovExOps = .ok (t'', (FMap.empty.after (fun v => v % 2 ^ 32) [.insert 3 1, .insert 20 1, .insert 37 1]).run (fun v => v % 2 ^ 32) ovExOps) := by
  have hx : (match Tab.run dbgOvEx (Tab.new dbgOvEx 10 20) [.insert 3 1, .insert 20 1, .insert 37 1] with
    | .ok (t, _) => decide (t.size = 3 ∧ t.ovf.items = [] ∧ t.bucketCount ≠ 0)
    | .error _ => false) = true := by decide +kernel
  split at hx
  case h_2 => cases hx
  next t as hrun =>
  obtain ⟨x1, x2, x3⟩ := of_decide_eq_true hx
  obtain ⟨bytes, e1, e2⟩ := C131_debug_map_file_partial (e := mapFileEx) dbgExOK ovEx_good ovEx_roomy mapFileEx_good ovEx_dbgFits
    (show ∀ op ∈ [.insert 3 1, .insert 20 1, .insert 37 1], DbgValid .arbitrary (.xorshift 16) 16 10 20 op by decide +kernel) hrun (by rw [x1]; decide) x2
  obtain ⟨t', f1, _, _, _, _, f2⟩ := e2 (fun _ => x3) (Tab.new dbgOvEx 7 3) [7]
  exact ⟨t, as, bytes, t', hrun, e1, f1, f2 _ dbgOvExOps_valid⟩

end SC
