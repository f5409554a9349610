import Verif.Group.Serial
import Verif.Sep.SerialOv
/-!
# `group_chaining_table::serialize` and `deserialize` with `array_overflow`, grp:1420-1509
-/
namespace SC
variable {c : GrpCfg} {hk : HashKind} {kw vw : Nat} {sp : Bool}

/-- `serialize(os)`, grp:1420-1445: the overflow table comes first, grp:1421 -/
def grpSerializeArr (c : GrpCfg) (hk : HashKind) (a : ArrEnv) (t : Tab GrpStore ArrOv) : Res (List Nat) := do
  let o ← t.ovf.serialize a
  let r ← grpSerialize c hk t.bare
  return o ++ r

/-- `deserialize(is)`, grp:1449-1509: `clear`, `m_overflow.deserialize(is)`, then the rest.  `reserve`, which is only called if there are
elements (grp:1461-1463), calls `resize_buckets` before the groups are read; here it is executed last, which makes no difference. -/
def grpDeserializeArr (c : GrpCfg) (hk : HashKind) (a : ArrEnv) (t : Tab GrpStore ArrOv) (is : List Nat) :
    Res (Tab GrpStore ArrOv × List Nat) := do
  let (o, is) ← ((arrOverflow a).clear t.ovf).deserialize a is
  let (u, is) ← grpDeserialize c hk t.bare is
  let o ← (if u.elems = 0 then .ok o else (arrOverflow a).resizeBuckets o (2 ^ u.tb) : Res ArrOv)
  return (u.dress o, is)

/-- Writing and reading the groups of a table with elements; the number of elements may be any. -/
theorem grpSerialize_rep {e : GrpCfg} (L : Laws (grpMapE c e hk) (grpPar sp hk kw vw)) {t : Tab GrpStore Unit} {cont : Cont}
    (hkw : t.kw = kw) (hvw : t.vw = vw) (hb1 : 1 ≤ t.bpg) (hb2 : t.bpg ≤ 64) (hlo : hk.lo kw 64 ≤ t.tb) (hhi : t.tb ≤ hk.width kw - 1)
    (hR : GrpRep sp t.store (t.dim (grpMap c hk)) cont) (he : t.elems ≠ 0) (hsz : t.elems < 2 ^ 64) :
    ∃ bytes, grpSerialize c hk t = .ok bytes ∧ ∀ (t0 : Tab GrpStore Unit) (rest : List Nat),
      ∃ u, grpDeserialize c hk t0 (bytes ++ rest) = .ok (u, rest) ∧ u.kw = t.kw ∧ u.vw = t.vw ∧ u.tb = t.tb ∧ u.elems = t.elems ∧
        u.bpg = t.bpg ∧ GrpRep false u.store (t.dim (grpMap c hk)) cont := by
  have hkw' : kw ≤ 64 := L.kw_le
  have hvw' : vw ≤ 64 := L.vw_le
  have htb : t.tb < 64 := Nat.lt_of_le_of_lt hhi L.hi_lt
  have hpos : 1 ≤ t.tb := Nat.le_trans L.lo_pos hlo
  have hcnt : grpCount t = t.store.n := by
    unfold grpCount
    rw [if_neg (by omega), hR.n]
    unfold Tab.bucketCount
    rw [if_neg (by omega)]
    rfl
  obtain ⟨r, e1, e2⟩ := grpSerGroups_ok (c := c) hR.grp (grpCount t) 0 (by omega)
  refine ⟨_, by unfold grpSerialize; rw [if_neg he, e1]; rfl, fun t0 rest => ?_⟩
  obtain ⟨t1, full1, g1, g2, g3, g4⟩ := reserveEmpty_ok L
    (t := { t0.clear (grpMap c hk) with kw := t.kw, vw := t.vw, bpg := t.bpg }) (n := 2 ^ t.tb) (r := t.tb) (m := 0)
    (full := fun _ => false) hkw hvw hb1 hb2 rfl ⟨rfl, rfl⟩ rfl (reserveBits_pow htb) hlo hhi
  rw [grpMapE, reserveEmpty_withErase] at g1
  rw [grpMapE, Live_withErase] at g2
  have hr : Tab.reserve (grpMap c hk) { t0.clear (grpMap c hk) with kw := t.kw, vw := t.vw, elems := t.elems, bpg := t.bpg }
      (2 ^ t.tb) = .ok { t1 with elems := t.elems } := by
    unfold Tab.reserve Tab.reserveWith
    rw [reserveBits_pow htb]
    exact reserveEmpty_elems (grpMap c hk) { t0.clear (grpMap c hk) with kw := t.kw, vw := t.vw, bpg := t.bpg } t1 _ t.elems g1
  have k1 : t1.kw = t.kw := by rw [hkw]; exact g2.tkw
  have k2 : t1.vw = t.vw := by rw [hvw]; exact g2.tvw
  have hd1 : Tab.dim (grpMap c hk) { t1 with elems := t.elems } = t.dim (grpMap c hk) := by
    unfold Tab.dim Tab.hash
    simp only [g3, g4, k1, k2]
  have hR1 : GrpRep sp t1.store (t1.dim (grpMap c hk)) (fun _ => []) := g2.rep
  have hn1 : t1.store.n = t.store.n := by
    rw [hR1.n, hR.n]
    show 2 ^ t1.tb / t1.bpg + 1 = _
    rw [g3, g4]; rfl
  have hc1 : grpCount { t1 with elems := t.elems } = grpCount t := by
    unfold grpCount Tab.bucketCount
    simp only [g3, g4]
  obtain ⟨s1, f1, f2, f3, _⟩ := e2 t1.store rest hn1
  refine ⟨_, grpDeser_eq (by omega) (by omega) htb hsz (by omega) he hr (by rw [hd1, hc1]; exact f1), k1, k2, g3, rfl, g4, ?_⟩
  exact ⟨by rw [f2]; exact hR.n, hR.out, fun j hj => by
    have hj : j < s1.n := hj
    exact f3 j (by omega) (by omega)⟩

end SC
