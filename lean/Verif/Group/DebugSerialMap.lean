import Verif.Overflow.MapDebug
import Verif.Overflow.MapSerial
import Verif.Group.DebugSerial
/-!
# `serialize` and `deserialize` of `group_chaining_table` with `map_overflow` in a debug build
-/
namespace SC

/-- `serialize(os)`, grp:1420-1446, in a debug build: the overflow table comes first, grp:1421; `map_overflow::serialize` has no assertions -/
def GrpDbgCfg.serializeMap (c : GrpDbgCfg) (e : MapFileEnv) (t : Tab GrpDbg MapOv) : Res (List Nat) := do
  let o ← t.ovf.serialize e
  let r ← c.serialize t.bare
  return o ++ r

/-- `deserialize(is)`, grp:1449-1509, in a debug build: `clear`, `m_overflow.deserialize(is)`, then the rest.  `reserve`, which calls `resize_buckets`, is
only called if there are elements (grp:1461-1463), and before the groups are read; here `resize_buckets` is executed last, which makes no difference: all failing
assertions give the same fault. -/
def GrpDbgCfg.deserializeMap (c : GrpDbgCfg) (hk : HashKind) (m : MapEnv) (e : MapFileEnv) (t : Tab GrpDbg MapOv) (is : List Nat) :
    Res (Tab GrpDbg MapOv × List Nat) := do
  let (o, is) ← ((mapOverflowDbg m).clear t.ovf).deserialize m e is
  let (u, is) ← c.deserialize hk t.bare is
  let o ← (if u.elems = 0 then .ok o else (mapOverflowDbg m).resizeBuckets o (2 ^ u.tb) : Res MapOv)
  return (u.dress o, is)

variable {c : GrpDbgCfg} {hk : HashKind}

/-- `DDCHECK_EQ(m_elements, restored_elements)` fails if it is the only thing that is wrong with a file -/
theorem grpDbgDeser_ne {kw vw : Nat} {t0 t1 : Tab GrpDbg Unit} {s1 s2 s3 : GrpDbg} {tb el el' bpg : Nat} {r ss rs rest : List Nat}
    (h1 : kw < 256) (h2 : vw < 256) (h3 : tb < 64) (h4 : el < 2 ^ 64) (h5 : bpg < 256) (h0 : el ≠ 0) (hnew : hk.dbgNew kw = .ok ())
    (h6 : Tab.reserve (grpDbgMap c) { t0.clear (grpDbgMap c) with kw := kw, vw := vw, elems := el, bpg := bpg } (2 ^ tb) = .ok t1)
    (htb : t1.tb = tb) (hbpg : bpg = t1.bpg) (hel : t1.elems = el) (hrem : c.remOK t1.kw t1.tb = true)
    (h7 : GrpDbg.deserGroups c.g (t1.dim (grpDbgMap c)) 0 (grpCount t1) t1.store (r ++ (ss ++ (rs ++ rest))) = .ok (s1, ss ++ (rs ++ rest)))
    (h8 : GrpDbg.deserSizes (List.range t1.bucketCount) s1 (ss ++ (rs ++ rest)) = .ok (s2, rs ++ rest))
    (h9 : c.checkSizes (t1.dim (grpDbgMap c)) s2 (List.range t1.bucketCount) = .ok ())
    (h10 : c.deserRows (t1.dim (grpDbgMap c)) s2 0 (List.range t1.bucketCount) (rs ++ rest) = .ok (s3, el', rest)) (hne : el ≠ el') :
    c.deserialize hk t0 (toBytes 1 kw ++ toBytes 1 vw ++ toBytes 1 tb ++ toBytes 8 el ++ toBytes 1 bpg ++ r ++ ss ++ rs ++ rest) =
      .error .exc := by
  have e1 : shl64 1 tb = .ok (2 ^ tb) := by
    unfold shl64
    rw [if_pos h3, Nat.shiftLeft_eq, Nat.one_mul, Nat.mod_eq_of_lt (Nat.pow_lt_pow_right (by omega) h3)]
  have hne' : ¬ t1.elems = el' := by rw [hel]; exact hne
  unfold GrpDbgCfg.deserialize
  simp only [List.append_assoc, takeBytes_append _ _ (toBytes_length _ _), ok_bind, ofBytes1 h1, ofBytes1 h2, ofBytes1 (show tb < 256 by omega),
    ofBytes8 h4, ofBytes1 h5, if_neg h0, e1, h6, hnew, ddcheck_ok htb, ddcheck_ok hbpg, ddcheck_ok hrem, h7, h8, h9, h10, ddcheck_fails hne',
    error_bind]

/-- The file of a table that has a wrong number of elements, but not zero, in `m_elements`: writing succeeds, reading fails the last assertion. -/
theorem grpDbgRead_exc {kw vw : Nat} {sp : Bool} {e : GrpCfg} (hO : GrpDbgOK c kw (hk.lo kw 64) (hk.width kw - 1))
    (hnew : hk.dbgNew kw = .ok ()) (L : Laws (grpDbgMapE c e) (grpDbgPar sp c hk kw vw)) {t : Tab GrpDbg Unit} {cont : Cont} {full : Nat → Bool}
    (hl : Live (grpDbgMap c) (grpDbgPar sp c hk kw vw) t cont [] full) {m : Nat} (hm0 : m ≠ 0) (hm : m < 2 ^ 64) (hne : m ≠ t.elems) :
    ∃ bytes, c.serialize { t with elems := m } = .ok bytes ∧ ∀ (t0 : Tab GrpDbg Unit) (rest : List Nat),
      c.deserialize hk t0 (bytes ++ rest) = .error .exc := by
  have hkw : kw ≤ 64 := L.kw_le
  have hvw : vw ≤ 64 := L.vw_le
  have htb : t.tb < 64 := Nat.lt_of_le_of_lt hl.hi L.hi_lt
  have htkw : t.kw = kw := hl.tkw
  have htvw : t.vw = vw := hl.tvw
  have hl' : Live (grpDbgMapE c e) (grpDbgPar sp c hk kw vw) t cont [] full := Live_withErase.mpr hl
  have hgood : GoodDim 64 (t.dim (grpDbgMap c)) := by
    have := hl'.good L
    rw [dim_withErase] at this
    exact this
  have hbc := hl'.bc L
  have hrem : c.remOK t.kw t.tb = true := by rw [htkw]; exact (hO.inv t.tb hl.lo hl.hi).2
  have hR : GrpDbgRep sp c kw (hk.lo kw 64) (hk.width kw - 1) t.store (t.dim (grpDbgMap c)) cont := hl.rep.1
  have hqw : (t.dim (grpDbgMap c)).qw ≤ 64 := Nat.le_trans hgood.qw_le hgood.kw_le
  have hp1 := hgood.bpg_pos
  have hp2 := hgood.bpg_le
  have hcnt : grpCount t = t.store.n := by
    have := hl'.tb_pos L
    unfold grpCount
    rw [if_neg (by omega), hbc, hR.n]; rfl
  have hlen : ∀ b < 2 ^ t.tb, (t.store.row b).size = (cont b).length := fun b hb => (hR.row b hb).1.size
  have hbs : ∀ b ∈ List.range t.bucketCount, b < 2 ^ t.tb := by
    intro b hb; rw [hbc] at hb; exact List.mem_range.mp hb
  obtain ⟨r, e1, e2⟩ := dbgSerGroups_ok (g := c.g) hR.grp (by omega) hqw hgood.vw_le (grpCount t) 0 (by omega)
  obtain ⟨ss, s1, s2⟩ := dbgSizes_ok (m := 2 ^ t.tb) hR.cnt (by
    intro b hb
    have := (hR.fits hp1 (b := b) hb).2
    rw [hlen b hb]; omega) (List.range t.bucketCount) hbs List.nodup_range
  obtain ⟨rs, r1, r2⟩ := dbgRows_ok hO hgood hR (List.range t.bucketCount) hbs List.nodup_range
  have hrem' : c.remOK (Tab.kw { t with elems := m }) (Tab.tb { t with elems := m }) = true := hrem
  have e1' : GrpDbg.serGroups (Tab.store { t with elems := m }) (Tab.dim (grpDbgMap c) { t with elems := m }) 0 (grpCount { t with elems := m }) = .ok r := e1
  have s1' : GrpDbg.serSizes (Tab.store { t with elems := m }) (List.range (Tab.bucketCount { t with elems := m })) = .ok ss := s1
  have r1' : GrpDbg.serRows (Tab.store { t with elems := m }) (List.range (Tab.bucketCount { t with elems := m })) = .ok rs := r1
  refine ⟨_, by unfold GrpDbgCfg.serialize; rw [if_neg hm0, ddcheck_ok hrem', ok_bind, e1', ok_bind, s1', ok_bind, r1']; rfl, fun t0 rest => ?_⟩
  obtain ⟨t1, full1, g1, g2, g3, g4⟩ := reserveEmpty_ok L
    (t := { t0.clear (grpDbgMap c) with kw := t.kw, vw := t.vw, bpg := t.bpg }) (n := 2 ^ t.tb) (r := t.tb) (m := 0)
    (full := fun _ => false) hl.tkw hl.tvw hl.bpg_pos hl.bpg_le rfl ⟨rfl, rfl⟩ rfl (reserveBits_pow htb) hl.lo hl.hi
  rw [reserveEmpty_withErase] at g1
  rw [Live_withErase] at g2
  have hr : Tab.reserve (grpDbgMap c) { t0.clear (grpDbgMap c) with kw := t.kw, vw := t.vw, elems := m, bpg := t.bpg }
      (2 ^ t.tb) = .ok { t1 with elems := m } := by
    unfold Tab.reserve Tab.reserveWith
    rw [reserveBits_pow htb]
    exact reserveEmpty_elems (grpDbgMap c) { t0.clear (grpDbgMap c) with kw := t.kw, vw := t.vw, bpg := t.bpg } t1 _ m g1
  have ht1kw : t1.kw = kw := g2.tkw
  have hd1 : Tab.dim (grpDbgMap c) { t1 with elems := m } = t.dim (grpDbgMap c) := by
    unfold Tab.dim Tab.hash
    simp only [g3, g4, g2.tkw, g2.tvw, hl.tkw, hl.tvw]
  have hR1 : GrpDbgRep sp c kw (hk.lo kw 64) (hk.width kw - 1) t1.store (t1.dim (grpDbgMap c)) (fun _ => []) := g2.rep.1
  have hn1 : t1.store.n = t.store.n := by
    rw [hR1.n, hR.n]
    show 2 ^ t1.tb / t1.bpg + 1 = _
    rw [g3, g4]; rfl
  have hcnt1 : t1.store.cnt = 2 ^ t.tb := by rw [hR1.cnt]; show 2 ^ t1.tb = _; rw [g3]
  have hc1 : grpCount { t1 with elems := m } = grpCount t := by
    unfold grpCount Tab.bucketCount
    simp only [g3, g4]
  have hbc1 : Tab.bucketCount { t1 with elems := m } = t.bucketCount := by
    unfold Tab.bucketCount
    simp only [g3]
  obtain ⟨u1, f1, f2, f5, f6, f3, _⟩ := e2 t1.store (ss ++ (rs ++ rest)) hn1
  obtain ⟨u2, v1, v2, v3, v4, v5, _⟩ := s2 u1 (rs ++ rest) (by rw [f5]; exact hcnt1)
  have hslots : ∀ j < u2.n, SlotDbg false (u2.grp j) (t.dim (grpDbgMap c)).bpg (t.dim (grpDbgMap c)).qw (t.dim (grpDbgMap c)).vw
      (localCont (t.dim (grpDbgMap c)).bpg cont j) := by
    intro j hj
    rw [v4]
    exact f3 j (by omega) (by omega)
  have hn2 : u2.n = 2 ^ t.tb / t.bpg + 1 := by rw [v2, f2, hR.n]; rfl
  have hrow2 : ∀ b < 2 ^ t.tb, u2.row b = { t1.store.row b with size := (cont b).length } := by
    intro b hb
    rw [v5 b (by rw [hbc]; exact List.mem_range.mpr hb), f6, hlen b hb]
  have hsz2 : ∀ b ∈ List.range t.bucketCount, (u2.row b).size = (cont b).length := by
    intro b hb
    rw [hrow2 b (hbs b hb)]
  obtain ⟨u3, w1, w2, w3, w4, w5, _⟩ := r2 u2 0 rest v3 hn2 hslots hsz2
  have hchk := checkSizes_ok (c := c) hslots hn2 v3 hp1 (by omega) (List.range t.bucketCount) (fun b hb => ⟨hbs b hb, hsz2 b hb⟩)
  have helems : t.elems = 0 + lenSum cont (List.range t.bucketCount) := by
    rw [hl.elems, hbc]
    simp [ents, stored_length]
  rw [← helems] at w1
  exact grpDbgDeser_ne (kw := t.kw) (vw := t.vw) (tb := t.tb) (bpg := t.bpg) (by omega) (by omega) htb hm (by have := hl.bpg_le; omega) hm0 (by rw [htkw]; exact hnew) hr g3 g4.symm rfl
    (by show c.remOK t1.kw t1.tb = true; rw [ht1kw, g3, ← htkw]; exact hrem)
    (by rw [hd1, hc1]; exact f1) (by rw [hbc1]; exact v1) (by rw [hd1, hbc1]; exact hchk) (by rw [hd1, hbc1]; exact w1) hne

end SC
