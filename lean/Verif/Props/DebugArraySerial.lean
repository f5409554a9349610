import Verif.Sep.DebugSerialOv
import Verif.Props.DebugArray
import Verif.Props.ArrayTableSerial
/-!
# Files of debug builds with `array_overflow` (C114)
-/
namespace SC

variable {KB VB : Type} {k : DbgCfg KB} {vops : BucketOps VB} {vnull : VB → Bool} {strat : Strategy} {maxBucket : Nat}
  {hk : HashKind} {kbits vbits : Nat} {tr : Nat → Nat → Nat} {W kw vw : Nat} {c : ArrEnv} {junk : Nat → Nat}
  {KRep : DbgB KB → Nat → Nat → List Nat → Prop} {VRep : VB → Nat → Nat → List Nat → Prop}

/-- the overflow table after a history -/
theorem dbg_arr_ovf (hf : ArrDbgFits c (tr vw) vw) (hkw : kw ≤ c.ks) {t : Tab (SepDbg (DbgB KB) VB) ArrOv} {l : List (Nat × Nat)}
    (hi : Inv (dbgMapIdeal k vops vnull strat maxBucket hk kbits c junk)
      ((sepDbgPar (dbgCfg k vops vnull strat maxBucket hk kbits) hk KRep VRep tr false W kw vw).setOv IdealRep) t l) :
    ∃ o, ArrRep c t.ovf o := by
  rcases hi with ⟨_, _, _, _, _, _, _, _, n, full, h7⟩ | ⟨cn, o, full, hl, _⟩
  · exact ⟨_, IdealRep.arrRep h7 (by simp)⟩
  · refine ⟨_, IdealRep.arrRep hl.orep fun e he => ⟨?_, ?_⟩⟩
    · exact Nat.lt_of_lt_of_le (hl.cok.osrc e he).1 (Nat.pow_le_pow_right (by omega) hkw)
    · have h1 : fitNorm tr vw e.2.2 = e.2.2 := hl.ovals e he
      rw [← h1]
      unfold fitNorm
      rw [← hf _ (by split; assumption; exact Nat.two_pow_pos _)]
      exact Nat.mod_lt _ (Nat.two_pow_pos _)

/-- the table without the elements of the overflow table -/
theorem dbg_arr_bare {t : Tab (SepDbg (DbgB KB) VB) ArrOv} {l : List (Nat × Nat)}
    (hi : Inv (dbgMapIdeal k vops vnull strat maxBucket hk kbits c junk)
      ((sepDbgPar (dbgCfg k vops vnull strat maxBucket hk kbits) hk KRep VRep tr false W kw vw).setOv IdealRep) t l) :
    ∃ n l0, Inv (dbgMap k vops vnull strat maxBucket hk kbits)
      (sepDbgPar (dbgCfg k vops vnull strat maxBucket hk kbits) hk KRep VRep tr false W kw vw) { t.bare with elems := n } l0 ∧
      t.elems = n + t.ovf.elems ∧ (t.ovf.elems = 0 → l0 = l) := by
  rcases hi with ⟨h1, h2, h3, h4, h5, h6, rfl, h8, n, full, h7⟩ | ⟨cn, o, full, hl, hp⟩
  · have h7 : IdealRep t.ovf n [] full := h7
    refine ⟨0, [], .inl ⟨h1, h2, h3, h4, h5, rfl, rfl, h8, 0, _, rfl, rfl⟩, ?_, fun _ => rfl⟩
    rw [h6, h7.elems]; rfl
  · have hR : IdealRep t.ovf (2 ^ t.tb) o full := hl.orep
    have hL : Live (dbgMap k vops vnull strat maxBucket hk kbits)
        (sepDbgPar (dbgCfg k vops vnull strat maxBucket hk kbits) hk KRep VRep tr false W kw vw)
        { t.bare with elems := (stored ((dbgMapIdeal k vops vnull strat maxBucket hk kbits c junk).hash kw) t.tb cn).length }
        cn [] (fun _ => false) :=
      { tkw := hl.tkw, tvw := hl.tvw, bpg_pos := hl.bpg_pos, bpg_le := hl.bpg_le, lo := hl.lo, hi := hl.hi, rep := hl.rep,
        orep := ⟨rfl, rfl⟩, cok := ⟨hl.cok.src, hl.cok.nodup, by simp, by simp⟩, ofull := by simp, vals := hl.vals, ovals := by simp,
        elems := by unfold ents; rw [List.map_nil, List.append_nil]; rfl }
    have hents : ents ((dbgMapIdeal k vops vnull strat maxBucket hk kbits c junk).hash kw) t.tb cn [] =
        stored ((dbgMapIdeal k vops vnull strat maxBucket hk kbits c junk).hash kw) t.tb cn := by
      unfold ents; rw [List.map_nil, List.append_nil]
    have he : t.elems = (stored ((dbgMapIdeal k vops vnull strat maxBucket hk kbits c junk).hash kw) t.tb cn).length + t.ovf.elems := by
      rw [hl.elems, hR.elems]
      unfold ents
      rw [List.length_append, List.length_map]
      rfl
    by_cases h0 : t.ovf.elems = 0
    · have ho : o = [] := by
        rw [hR.elems] at h0
        exact List.length_eq_zero_iff.mp h0
      subst ho
      exact ⟨_, l, .inr ⟨cn, [], _, hL, hp⟩, he, fun _ => rfl⟩
    · exact ⟨_, _, .inr ⟨cn, [], _, hL, List.Perm.refl _⟩, he, fun h => absurd h h0⟩

/-- the other way round -/
theorem dbg_arr_dress (L : Laws (dbgMap k vops vnull strat maxBucket hk kbits)
      (sepDbgPar (dbgCfg k vops vnull strat maxBucket hk kbits) hk KRep VRep tr false W kw vw))
    {t : Tab (SepDbg (DbgB KB) VB) ArrOv} {u : Tab (SepDbg (DbgB KB) VB) Unit} {l : List (Nat × Nat)}
    (hi : Inv (dbgMapIdeal k vops vnull strat maxBucket hk kbits c junk)
      ((sepDbgPar (dbgCfg k vops vnull strat maxBucket hk kbits) hk KRep VRep tr false W kw vw).setOv IdealRep) t l)
    (hu : Inv (dbgMap k vops vnull strat maxBucket hk kbits)
      (sepDbgPar (dbgCfg k vops vnull strat maxBucket hk kbits) hk KRep VRep tr false W kw vw) u l) (htb : u.tb = t.tb)
    (h0 : t.ovf.elems = 0) :
    Inv (dbgMapIdeal k vops vnull strat maxBucket hk kbits c junk)
      ((sepDbgPar (dbgCfg k vops vnull strat maxBucket hk kbits) hk KRep VRep tr false W kw vw).setOv IdealRep) (u.dress t.ovf) l := by
  rcases hu with ⟨h1, h2, h3, h4, h5, h6, rfl, h8, _⟩ | ⟨cn, o, full, hl, hp⟩
  · refine .inl ⟨h1, h2, h3, h4, h5, h6, rfl, h8, ?_⟩
    rcases hi with ⟨_, _, _, _, _, _, _, _, n, full, h7⟩ | ⟨cn, o, full, hl, _⟩
    · exact ⟨n, full, h7⟩
    · have hR : IdealRep t.ovf (2 ^ t.tb) o full := hl.orep
      have ho : o = [] := by
        rw [hR.elems] at h0
        exact List.length_eq_zero_iff.mp h0
      subst ho
      exact ⟨_, full, hR⟩
  · have ho : o = [] := hl.orep.1
    subst ho
    have hpos := hl.tb_pos L
    rcases hi with ⟨_, _, _, _, h5, _⟩ | ⟨cn', o, full', hl', _⟩
    · omega
    · have hR : IdealRep t.ovf (2 ^ t.tb) o full' := hl'.orep
      have ho : o = [] := by
        rw [hR.elems] at h0
        exact List.length_eq_zero_iff.mp h0
      subst ho
      refine .inr ⟨cn, [], full', ?_, hp⟩
      exact { tkw := hl.tkw, tvw := hl.tvw, bpg_pos := hl.bpg_pos, bpg_le := hl.bpg_le, lo := hl.lo, hi := hl.hi, rep := hl.rep,
              orep := by show IdealRep t.ovf (2 ^ u.tb) [] full'; rw [htb]; exact hR
              cok := hl.cok, ofull := by simp, vals := hl.vals, ovals := by simp, elems := hl.elems }

/-- what both parts of C114 are read off from -/
theorem dbg_arr_file (h : SepDbgTabOK k vops vnull maxBucket hk kbits vbits tr W kw vw) (hf : ArrDbgFits c (tr vw) vw)
    (hkw : kw ≤ c.ks) (hk8 : 8 ∣ c.ks) (hv8 : 8 ∣ c.vs) {ops : List MapOp}
    (hops : ∀ op ∈ ops, DbgValid strat hk W kw vw op ∧ op.tame (NotJunk c junk)) {t : Tab (SepDbg (DbgB KB) VB) ArrOv} {as : List Ans}
    (hrun : Tab.run (dbgMapArr k vops vnull strat maxBucket hk kbits c junk)
      (Tab.new (dbgMapArr k vops vnull strat maxBucket hk kbits c junk) kw vw) ops = .ok (t, as)) (hsz : t.size < 2 ^ 64) :
    ∃ bytes, (dbgCfg k vops vnull strat maxBucket hk kbits).serializeArr c t = .ok bytes ∧
      (t.ovf.elems ≠ 0 → ∀ t0 rest, (dbgCfg k vops vnull strat maxBucket hk kbits).deserializeArr hk c t0 (bytes ++ rest) = .error .exc) ∧
      (t.ovf.elems = 0 → (strat = .arbitrary → t.bucketCount ≠ 0) → ∀ t0 rest, ∃ t',
        (dbgCfg k vops vnull strat maxBucket hk kbits).deserializeArr hk c t0 (bytes ++ rest) = .ok (t', rest) ∧ t'.kw = t.kw ∧
        t'.vw = t.vw ∧ t'.size = t.size ∧ t'.bucketCount = t.bucketCount ∧ t'.ovf.elems = 0 ∧ t'.ovf.keys.len = 0 ∧
        ∀ x < 2 ^ kw, t'.lookup (dbgMapArr k vops vnull strat maxBucket hk kbits c junk) x =
          .ok (((FMap.empty.after (tr vw) ops).get x).map (fun v => (x, v)))) := by
  obtain ⟨KRep, VRep, L0⟩ := h.serial strat false
  obtain ⟨L, t₁, l, r1, hi, ha⟩ := dbg_arr_run L0 hf hops
  have : t₁ = t := congrArg Prod.fst (Except.ok.inj (r1.symm.trans hrun))
  subst t₁
  obtain ⟨o, hA⟩ := dbg_arr_ovf hf hkw hi
  obtain ⟨ob, s1, s2⟩ := hA.dbgSerialize hk8 hv8
  obtain ⟨n, l0, hb, hn, hl0⟩ := dbg_arr_bare hi
  have hsz' : t.elems < 2 ^ 64 := hsz
  obtain ⟨bytes, e1, e2⟩ := dbgSerialize_ok L0 rfl hb (show n < 2 ^ 64 by omega)
  obtain ⟨r, e3, e4⟩ := dbgSer_elems e1
  refine ⟨ob ++ _, by unfold SepDbgCfg.serializeArr; rw [s1, ok_bind, e4, ok_bind, pure_eq_ok], ?_, ?_⟩
  · intro hne t0 rest
    have hlive : t.bare.bucketCount ≠ 0 := by
      rcases hi with ⟨_, _, _, _, _, _, _, _, m, full, h7⟩ | ⟨cn, o, full, hl, _⟩
      · exact absurd h7.elems hne
      · have := hl.bc L
        have h2 := Nat.two_pow_pos t.tb
        show t.bucketCount ≠ 0
        omega
    obtain ⟨t', f1, _⟩ := e2 (fun _ => hlive) t0.bare rest
    rw [e3] at f1
    simp only [List.append_assoc] at f1 ⊢
    have := dbgDeser_elems (m := t.bare.elems) (show n < 2 ^ 64 by omega) hsz' f1 (show t.elems ≠ n by omega)
    unfold SepDbgCfg.deserializeArr
    rw [s2, ok_bind]
    dsimp only
    rw [this, error_bind]
  · intro h0 hbk t0 rest
    obtain rfl := hl0 h0
    have hn' : n = t.elems := by omega
    obtain ⟨u, f1, f2, f3⟩ := e2 hbk t0.bare rest
    have f3 : u.tb = t.tb := f3
    rw [e3, hn'] at f1
    have hd : (dbgCfg k vops vnull strat maxBucket hk kbits).deserializeArr hk c t0 (ob ++ (toBytes 1 t.bare.kw ++ (toBytes 1 t.bare.vw ++
        (toBytes 1 t.bare.tb ++ (toBytes 8 t.bare.elems ++ r)))) ++ rest) =
        .ok (u.dress { t0.ovf with keys := some (o.map (fun e => some e.1)), vals := some (o.map (fun e => some e.2)), elems := o.length,
                                   bits := fun i => c.fresh (t0.ovf.bits i) (2 ^ u.tb) i, nbits := 2 ^ u.tb }, rest) := by
      unfold SepDbgCfg.deserializeArr
      rw [List.append_assoc, s2, ok_bind]
      dsimp only
      rw [show t.bare.elems = t.elems from rfl, f1]
      rfl
    have ho : o = [] := by
      have := hA.elems
      rw [h0] at this
      exact List.length_eq_zero_iff.mp this.symm
    subst ho
    have hu := dbg_arr_dress L0.laws hi f2 f3 h0
    have hS : Sem (dbgMapIdeal k vops vnull strat maxBucket hk kbits c junk)
      ((sepDbgPar (dbgCfg k vops vnull strat maxBucket hk kbits) hk KRep VRep tr false W kw vw).setOv IdealRep) (u.dress t.ovf) _ := ⟨_, hu, ha⟩
    have hS0 : Sem (dbgMapIdeal k vops vnull strat maxBucket hk kbits c junk)
      ((sepDbgPar (dbgCfg k vops vnull strat maxBucket hk kbits) hk KRep VRep tr false W kw vw).setOv IdealRep) t _ := ⟨_, hi, ha⟩
    refine ⟨_, hd, hS.widths.1.trans hS0.widths.1.symm, hS.widths.2.trans hS0.widths.2.symm, hS.size.trans hS0.size.symm, ?_, rfl, rfl, ?_⟩
    · show u.bucketCount = _
      unfold Tab.bucketCount
      rw [f3]
    · intro x hx
      refine Eq.trans ?_ (hS.lookup L hx)
      refine OvAlike.lookup (g := dbgMapIdeal k vops vnull strat maxBucket hk kbits c junk) (a := arrDbg c (arrJunk c junk)) ?_ (u.dress t.ovf) (hS.tb_lt L)
      refine ⟨h0.symm, funext fun p => ?_, ?_, ?_, ?_⟩
      · show decide (p < 0) = decide (p < t.ovf.elems)
        rw [h0]
      · intro hp
        have hp : 0 < t.ovf.elems := hp
        omega
      · intro p hp
        have hp : p < t.ovf.elems := of_decide_eq_true hp
        omega
      · intro p hp
        have hp : p < t.ovf.elems := of_decide_eq_true hp
        omega

/-! ## C114 -/

/-- **C114**, true part: after any calls for which a debug build with `array_overflow` works (C113), `serialize` fails no assertion; and if
the overflow table is empty, neither does `deserialize`, whatever table is read into and whatever follows in the stream, and the table
read has the same widths, `size()`, `bucket_count()` and contents.  (With `arbitrary_resize` the table must have buckets, see C95.)
Missing: tables with elements in the overflow table, see `C114_debug_read_false`, and calls after reading, see `C114_read_back_insert_false`. -/
theorem C114_debug_array_file_partial (h : SepDbgTabOK k vops vnull maxBucket hk kbits vbits tr W kw vw) (hf : ArrDbgFits c (tr vw) vw)
    (hkw : kw ≤ c.ks) (hk8 : 8 ∣ c.ks) (hv8 : 8 ∣ c.vs) {ops : List MapOp}
    (hops : ∀ op ∈ ops, DbgValid strat hk W kw vw op ∧ op.tame (NotJunk c junk)) {t : Tab (SepDbg (DbgB KB) VB) ArrOv} {as : List Ans}
    (hrun : Tab.run (dbgMapArr k vops vnull strat maxBucket hk kbits c junk)
      (Tab.new (dbgMapArr k vops vnull strat maxBucket hk kbits c junk) kw vw) ops = .ok (t, as)) (hsz : t.size < 2 ^ 64) :
    ∃ bytes, (dbgCfg k vops vnull strat maxBucket hk kbits).serializeArr c t = .ok bytes ∧
      (t.ovf.elems = 0 → (strat = .arbitrary → t.bucketCount ≠ 0) → ∀ t0 rest, ∃ t',
        (dbgCfg k vops vnull strat maxBucket hk kbits).deserializeArr hk c t0 (bytes ++ rest) = .ok (t', rest) ∧ t'.kw = t.kw ∧
        t'.vw = t.vw ∧ t'.size = t.size ∧ t'.bucketCount = t.bucketCount ∧
        ∀ x < 2 ^ kw, t'.lookup (dbgMapArr k vops vnull strat maxBucket hk kbits c junk) x =
          .ok (((FMap.empty.after (tr vw) ops).get x).map (fun v => (x, v)))) := by
  obtain ⟨bytes, h1, _, h3⟩ := dbg_arr_file h hf hkw hk8 hv8 hops hrun hsz
  refine ⟨bytes, h1, fun h0 hb t0 rest => ?_⟩
  obtain ⟨t', g1, g2, g3, g4, g5, _, _, g6⟩ := h3 h0 hb t0 rest
  exact ⟨t', g1, g2, g3, g4, g5, g6⟩

/-- **C114** is false: whenever an element is in the overflow table, the assertion at the end of `deserialize` fails, whatever table is read
into: it compares `m_elements` with the number of elements in the buckets. -/
theorem C114_debug_read_false (h : SepDbgTabOK k vops vnull maxBucket hk kbits vbits tr W kw vw) (hf : ArrDbgFits c (tr vw) vw)
    (hkw : kw ≤ c.ks) (hk8 : 8 ∣ c.ks) (hv8 : 8 ∣ c.vs) {ops : List MapOp}
    (hops : ∀ op ∈ ops, DbgValid strat hk W kw vw op ∧ op.tame (NotJunk c junk)) {t : Tab (SepDbg (DbgB KB) VB) ArrOv} {as : List Ans}
    (hrun : Tab.run (dbgMapArr k vops vnull strat maxBucket hk kbits c junk)
      (Tab.new (dbgMapArr k vops vnull strat maxBucket hk kbits c junk) kw vw) ops = .ok (t, as)) (hsz : t.size < 2 ^ 64)
    (hne : t.ovf.elems ≠ 0) :
    ∃ bytes, (dbgCfg k vops vnull strat maxBucket hk kbits).serializeArr c t = .ok bytes ∧
      ∀ t0 rest, (dbgCfg k vops vnull strat maxBucket hk kbits).deserializeArr hk c t0 (bytes ++ rest) = .error .exc := by
  obtain ⟨bytes, h1, h2, _⟩ := dbg_arr_file h hf hkw hk8 hv8 hops hrun hsz
  exact ⟨bytes, h1, h2 hne⟩

/-- the table class of the examples -/
abbrev dbgArrCfg : SepDbgCfg (DbgB PlainB) (DbgB PlainB) :=
  dbgCfg (dbgPlain 16 12345) (dbgOps (dbgPlain 32 678)) (fun b => b.data.isNone) .arbitrary 3 (.xorshift 16) 64

/-- 60 pairs are stored, some of them in the overflow table, and the file cannot be read -/
example : ∃ t as bytes, Tab.run dbgArrEx (Tab.new dbgArrEx 10 20) (zeroExOps.take 60) = .ok (t, as) ∧ t.size = 60 ∧
    dbgArrCfg.serializeArr zeroEx t = .ok bytes ∧ ∀ t0 rest, dbgArrCfg.deserializeArr (.xorshift 16) zeroEx t0 (bytes ++ rest) = .error .exc := by
  have hx : (match Tab.run dbgArrEx (Tab.new dbgArrEx 10 20) (zeroExOps.take 60) with
    | .ok (t, _) => decide (t.size = 60 ∧ t.ovf.elems ≠ 0)
    | .error _ => false) = true := by decide +kernel
  split at hx
  case h_2 => cases hx
  next t as hrun =>
  obtain ⟨x1, x2⟩ := of_decide_eq_true hx
  obtain ⟨bytes, e1, e2⟩ := C114_debug_read_false dbgExOK zeroEx_dbgFits (by decide) (by decide) (by decide)
    (fun op h => dbgArrExOps_valid op (List.mem_of_mem_take h)) hrun (by rw [x1]; decide) x2
  exact ⟨t, as, bytes, hrun, x1, e1, e2⟩

/-- **C114** is false: three pairs are stored, all of them in buckets, and the file is read into a new table.  After that, the fifth pair is
the first one for the overflow table, and an assertion fails, which does not happen in the table that was written. -/
theorem C114_read_back_insert_false : ∃ t as bytes t' t'' as'',
    Tab.run dbgArrEx (Tab.new dbgArrEx 10 20) [.insert 3 1, .insert 20 1, .insert 37 1] = .ok (t, as) ∧
    dbgArrCfg.serializeArr zeroEx t = .ok bytes ∧
    dbgArrCfg.deserializeArr (.xorshift 16) zeroEx (Tab.new dbgArrEx 10 20) bytes = .ok (t', []) ∧
    Tab.run dbgArrEx t [.insert 48 1, .insert 59 1] = .ok (t'', as'') ∧
    Tab.run dbgArrEx t' [.insert 48 1, .insert 59 1] = .error .exc := by
  have hx : (match Tab.run dbgArrEx (Tab.new dbgArrEx 10 20) [.insert 3 1, .insert 20 1, .insert 37 1] with
    | .ok (t, _) => (match dbgArrCfg.serializeArr zeroEx t with
      | .ok bytes => (match dbgArrCfg.deserializeArr (.xorshift 16) zeroEx (Tab.new dbgArrEx 10 20) bytes with
        | .ok (t', rest) => rest == [] && (match Tab.run dbgArrEx t [.insert 48 1, .insert 59 1] with
            | .ok _ => true
            | .error _ => false) && (match Tab.run dbgArrEx t' [.insert 48 1, .insert 59 1] with
            | .ok _ => false
            | .error e => e == .exc)
        | .error _ => false)
      | .error _ => false)
    | .error _ => false) = true := by decide +kernel
  split at hx
  case h_2 => cases hx
  next t as h1 =>
  split at hx
  case h_2 => cases hx
  next bytes h2 =>
  split at hx
  case h_2 => cases hx
  next t' rest h3 =>
  simp only [Bool.and_eq_true, beq_iff_eq] at hx
  obtain ⟨⟨rfl, hx⟩, hy⟩ := hx
  split at hx
  case h_2 => cases hx
  next r h4 =>
  split at hy
  case h_1 => cases hy
  next e h5 =>
  exact ⟨t, as, bytes, t', r.1, r.2, h1, h2, h3, h4, by rw [h5, beq_iff_eq.mp hy]⟩

/-- the hypotheses of `C114_debug_array_file_partial` hold for the table of the last theorem -/
example : ∃ t as bytes t', Tab.run dbgArrEx (Tab.new dbgArrEx 10 20) [.insert 3 1, .insert 20 1, .insert 37 1] = .ok (t, as) ∧
    dbgArrCfg.serializeArr zeroEx t = .ok bytes ∧
    dbgArrCfg.deserializeArr (.xorshift 16) zeroEx (Tab.new dbgArrEx 10 20) (bytes ++ [7]) = .ok (t', [7]) ∧
    t'.lookup dbgArrEx 20 = .ok (some (20, 1)) := by
  have hx : (match Tab.run dbgArrEx (Tab.new dbgArrEx 10 20) [.insert 3 1, .insert 20 1, .insert 37 1] with
    | .ok (t, _) => decide (t.size = 3 ∧ t.ovf.elems = 0 ∧ t.bucketCount ≠ 0)
    | .error _ => false) = true := by decide +kernel
  split at hx
  case h_2 => cases hx
  next t as hrun =>
  obtain ⟨x1, x2, x3⟩ := of_decide_eq_true hx
  obtain ⟨bytes, e1, e2⟩ := C114_debug_array_file_partial dbgExOK zeroEx_dbgFits (by decide) (by decide) (by decide)
    (show ∀ op ∈ [.insert 3 1, .insert 20 1, .insert 37 1], DbgValid .arbitrary (.xorshift 16) 16 10 20 op ∧ op.tame (NotJunk zeroEx (fun _ => 0)) by
      decide +kernel) hrun (by rw [x1]; decide)
  obtain ⟨t', f1, _, _, _, _, f2⟩ := e2 x2 (fun _ => x3) (Tab.new dbgArrEx 10 20) [7]
  exact ⟨t, as, bytes, t', hrun, e1, f1, (f2 20 (by decide)).trans (by decide)⟩

end SC
