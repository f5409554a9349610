import Verif.Sep.Capacity
/-!
# `separate_chaining_table::serialize` and `deserialize`, sep:790-850

Only with `dummy_overflow`, whose `serialize` and `deserialize` do nothing (overflow.hpp:32-35).
-/
namespace SC
variable {KB VB : Type}

/-- the loop over the buckets in `serialize`, sep:802-807 -/
def SepCfg.serBuckets (p : SepCfg KB VB) (s : SepStore KB VB) (d : Dim) : List Nat → Res (List Nat)
  | [] => .ok []
  | b :: bs => do
    let x ← s.get b
    if x.size = 0 then p.serBuckets s d bs
    else
      let ks ← p.kops.serialize x.keys x.size d.qw
      let vs ← p.vops.serialize x.vals x.size d.vw
      let r ← p.serBuckets s d bs
      return ks ++ vs ++ r

/-- `serialize(os)`, sep:790-808: the bytes that are written.  `m_key_width`, `m_value_width`, `m_buckets` and the
entries of `m_bucketsizes` have one byte, `m_elements` has eight. -/
def SepCfg.serialize (p : SepCfg KB VB) (hk : HashKind) (t : Tab (SepStore KB VB) Unit) : Res (List Nat) := do
  let sizes ← (List.range t.bucketCount).mapM (fun b => do
    let x ← t.store.get b
    return x.size % 256)
  let r ← p.serBuckets t.store (t.dim (sepMap p hk)) (List.range t.bucketCount)
  return toBytes 1 t.kw ++ toBytes 1 t.vw ++ toBytes 1 t.tb ++ toBytes 8 t.elems ++ sizes ++ r

/-- the loop over the buckets in `deserialize`, sep:829-832 -/
def SepCfg.deserBuckets (p : SepCfg KB VB) (d : Dim) : SepStore KB VB → List Nat → List Nat →
    Res (SepStore KB VB × List Nat)
  | s, [], is => .ok (s, is)
  | s, b :: bs, is => do
    let x ← s.get b
    if x.size = 0 then p.deserBuckets d s bs is
    else
      let (ks, is) ← p.kops.deserialize x.size d.qw is
      let (vs, is) ← p.vops.deserialize x.size d.vw is
      p.deserBuckets d (s.set b { x with keys := ks, vals := vs }) bs is

/-- `deserialize(is)`, sep:809-850: new state and the bytes that have not been read.  `is.read(m_bucketsizes, ...)` sets the
bucket sizes; `m_resize_strategy` keeps the zeros written by `allocate`.  (The member `bpg` of the model does not exist in
this table.) -/
def SepCfg.deserialize (p : SepCfg KB VB) (hk : HashKind) (t : Tab (SepStore KB VB) Unit) (is : List Nat) :
    Res (Tab (SepStore KB VB) Unit × List Nat) := do
  let t := t.clear (sepMap p hk)
  let (kw, is) ← takeBytes 1 is
  let (vw, is) ← takeBytes 1 is
  let t := { t with kw := ofBytes kw, vw := ofBytes vw, bpg := 1 }
  let (tb, is) ← takeBytes 1 is
  let n ← shl64 1 (ofBytes tb)
  let t ← t.reserve (sepMap p hk) n
  let (el, is) ← takeBytes 8 is
  let t := { t with elems := ofBytes el }
  let (sizes, is) ← takeBytes t.bucketCount is
  let s : SepStore KB VB := { t.store with bkt := fun b => { t.store.bkt b with size := (sizes[b]?).getD (t.store.bkt b).size } }
  let (s, is) ← p.deserBuckets (t.dim (sepMap p hk)) s (List.range t.bucketCount) is
  return ({ t with store := s }, is)

/-! ## Round trip -/

variable {p : SepCfg KB VB} {hk : HashKind} {tr : Nat → Nat → Nat} {W kw vw : Nat} {knorm vnorm : Nat → Nat → Nat}
  {KRep : KB → Nat → Nat → List Nat → Prop} {VRep : VB → Nat → Nat → List Nat → Prop} {tight : Bool}

/-- what the law about `serialize` says for all continuations of the stream at once -/
theorem LawfulBucket.ser {B : Type} {ops : BucketOps B} {norm : Nat → Nat → Nat} {Rep : B → Nat → Nat → List Nat → Prop}
    (h : LawfulBucket ops norm Rep) {b : B} {w cap : Nat} {xs : List Nat} (h1 : 1 ≤ w) (h2 : w ≤ 64)
    (hr : Rep b w cap xs) (h0 : 0 < xs.length) :
    ∃ bytes, ops.serialize b xs.length w = .ok bytes ∧
      ∀ rest, ∃ b', ops.deserialize xs.length w (bytes ++ rest) = .ok (b', rest) ∧ Rep b' w xs.length xs := by
  obtain ⟨bytes, _, e1, _, _⟩ := h.serialize b w cap xs [] h1 h2 hr h0
  refine ⟨bytes, e1, fun rest => ?_⟩
  obtain ⟨bytes', b', e1', e2', e3'⟩ := h.serialize b w cap xs rest h1 h2 hr h0
  rw [e1] at e1'
  cases e1'
  exact ⟨b', e2', e3'⟩

theorem serBuckets_ok (hK : LawfulBucket p.kops knorm KRep) (hV : LawfulBucket p.vops vnorm VRep) {d : Dim}
    (hd : GoodDim W d) {s : SepStore KB VB} {c : Cont} (h : SepRep p KRep VRep tight s d c) :
    ∀ bs : List Nat, (∀ b ∈ bs, b < 2 ^ d.tb) → bs.Nodup → ∃ bytes, p.serBuckets s d bs = .ok bytes ∧
      ∀ (s0 : SepStore KB VB) (rest : List Nat), s0.n = 2 ^ d.tb → (∀ b ∈ bs, (s0.bkt b).size = (c b).length) →
        ∃ s1, p.deserBuckets d s0 bs (bytes ++ rest) = .ok (s1, rest) ∧ s1.n = s0.n ∧
          (∀ b ∈ bs, (s1.bkt b).size = (s0.bkt b).size ∧ (s1.bkt b).cap = (s0.bkt b).cap ∧
            (c b ≠ [] → KRep (s1.bkt b).keys d.qw (c b).length ((c b).map Prod.fst) ∧
              VRep (s1.bkt b).vals d.vw (c b).length ((c b).map Prod.snd)) ∧ (c b = [] → s1.bkt b = s0.bkt b)) ∧
          ∀ b, b ∉ bs → s1.bkt b = s0.bkt b := by
  intro bs
  induction bs with
  | nil =>
    intro _ _
    exact ⟨[], rfl, fun s0 rest _ _ => ⟨s0, rfl, rfl, by simp, fun _ _ => rfl⟩⟩
  | cons b bs ih =>
    intro hlt hnd
    obtain ⟨hnb, hnd'⟩ := List.nodup_cons.mp hnd
    obtain ⟨bytes, e1, e2⟩ := ih (fun x hx => hlt x (by simp [hx])) hnd'
    have hb := hlt b (by simp)
    have hB := h.bkt b hb
    by_cases hc : c b = []
    · have hz : (s.bkt b).size = 0 := by rw [hB.size, hc]; rfl
      refine ⟨bytes, by simp only [SepCfg.serBuckets, h.get hb, ok_bind, hz, if_true, e1], ?_⟩
      intro s0 rest hn hs
      obtain ⟨s1, f1, f2, f3, f4⟩ := e2 s0 rest hn (fun x hx => hs x (by simp [hx]))
      have hz0 : (s0.bkt b).size = 0 := by rw [hs b (by simp), hc]; rfl
      have hg : s0.get b = .ok (s0.bkt b) := by unfold SepStore.get; rw [hn, if_pos hb]
      refine ⟨s1, by simp only [SepCfg.deserBuckets, hg, ok_bind, hz0, if_true, f1], f2, ?_, ?_⟩
      · intro x hx
        rcases List.mem_cons.mp hx with rfl | hx
        · rw [f4 x hnb]
          exact ⟨rfl, rfl, fun h => absurd hc h, fun _ => rfl⟩
        · exact f3 x hx
      · intro x hx
        exact f4 x (fun h => hx (by simp [h]))
    · have hl : 0 < (c b).length := List.length_pos_iff.mpr hc
      obtain ⟨cap, r1, r2, _⟩ := hB.rep hc
      obtain ⟨kb, k1, k2⟩ := hK.ser hd.qw_pos (Nat.le_trans hd.qw_le hd.kw_le) r1 (by simpa using hl)
      obtain ⟨vb, v1, v2⟩ := hV.ser hd.vw_pos hd.vw_le r2 (by simpa using hl)
      rw [List.length_map] at k1 v1
      refine ⟨kb ++ vb ++ bytes, ?_, ?_⟩
      · simp only [SepCfg.serBuckets, h.get hb, ok_bind, hB.size, if_neg (show ¬ (c b).length = 0 by omega), k1, v1, e1,
          pure_eq_ok]
      · intro s0 rest hn hs
        obtain ⟨kb', k3, k4⟩ := k2 (vb ++ bytes ++ rest)
        obtain ⟨vb', v3, v4⟩ := v2 (bytes ++ rest)
        have hs0 := hs b (by simp)
        have hg : s0.get b = .ok (s0.bkt b) := by unfold SepStore.get; rw [hn, if_pos hb]
        obtain ⟨s1, f1, f2, f3, f4⟩ := e2 (s0.set b { s0.bkt b with keys := kb', vals := vb' }) rest hn (by
          intro x hx
          have : x ≠ b := fun e => hnb (e ▸ hx)
          show (upd s0.bkt b _ x).size = _
          rw [upd_other _ _ this]
          exact hs x (by simp [hx]))
        rw [List.length_map] at k3 v3
        refine ⟨s1, ?_, f2, ?_, ?_⟩
        · have a1 : kb ++ vb ++ bytes ++ rest = kb ++ (vb ++ bytes ++ rest) := by simp [List.append_assoc]
          have a2 : vb ++ bytes ++ rest = vb ++ (bytes ++ rest) := by simp [List.append_assoc]
          simp only [SepCfg.deserBuckets, hg, ok_bind, hs0, if_neg (show ¬ (c b).length = 0 by omega), a1, k3]
          rw [a2, v3]
          simp only [ok_bind]
          rw [← f1]
          simp only [hs0]
        · intro x hx
          rcases List.mem_cons.mp hx with rfl | hx
          · rw [f4 x hnb]
            refine ⟨by simp [SepStore.set], by simp [SepStore.set], fun _ => ?_, fun h => absurd h hc⟩
            simp only [SepStore.set, upd_same]
            rw [List.length_map] at k4 v4
            exact ⟨k4, v4⟩
          · have : x ≠ b := fun e => hnb (e ▸ hx)
            have e : (s0.set b { s0.bkt b with keys := kb', vals := vb' }).bkt x = s0.bkt x := upd_other _ _ this
            have := f3 x hx
            rw [e] at this
            exact this
        · intro x hx
          have h1 : x ∉ bs := fun h => hx (by simp [h])
          have h2 : x ≠ b := fun h => hx (by simp [h])
          rw [f4 x h1]
          exact upd_other _ _ h2

theorem ofBytes1 {x : Nat} (h : x < 256) : ofBytes (toBytes 1 x) = x := by
  rw [ofBytes_toBytes]; exact Nat.mod_eq_of_lt (by simpa using h)

theorem ofBytes8 {x : Nat} (h : x < 2 ^ 64) : ofBytes (toBytes 8 x) = x := by
  rw [ofBytes_toBytes]; exact Nat.mod_eq_of_lt (by simpa using h)

theorem deser_eq {t0 t1 : Tab (SepStore KB VB) Unit} {s1 : SepStore KB VB} {tb el : Nat} {sizes r rest : List Nat}
    (h1 : kw < 256) (h2 : vw < 256) (h3 : tb < 64) (h4 : el < 2 ^ 64)
    (h5 : Tab.reserve (sepMap p hk) { t0.clear (sepMap p hk) with kw := kw, vw := vw, bpg := 1 } (2 ^ tb) = .ok t1)
    (h6 : sizes.length = t1.bucketCount)
    (h7 : p.deserBuckets (t1.dim (sepMap p hk))
      { t1.store with bkt := fun b => { t1.store.bkt b with size := (sizes[b]?).getD (t1.store.bkt b).size } }
      (List.range t1.bucketCount) (r ++ rest) = .ok (s1, rest)) :
    p.deserialize hk t0 (toBytes 1 kw ++ toBytes 1 vw ++ toBytes 1 tb ++ toBytes 8 el ++ sizes ++ r ++ rest) =
      .ok ({ t1 with elems := el, store := s1 }, rest) := by
  have a : toBytes 1 kw ++ toBytes 1 vw ++ toBytes 1 tb ++ toBytes 8 el ++ sizes ++ r ++ rest =
      toBytes 1 kw ++ (toBytes 1 vw ++ (toBytes 1 tb ++ (toBytes 8 el ++ (sizes ++ (r ++ rest))))) := by
    simp only [List.append_assoc]
  have e1 : shl64 1 tb = .ok (2 ^ tb) := by
    unfold shl64
    rw [if_pos h3, Nat.shiftLeft_eq, Nat.one_mul, Nat.mod_eq_of_lt (Nat.pow_lt_pow_right (by omega) h3)]
  have e2 : Tab.bucketCount { t1 with elems := el } = t1.bucketCount := rfl
  have e3 : Tab.dim (sepMap p hk) { t1 with elems := el } = t1.dim (sepMap p hk) := rfl
  rw [a]
  unfold SepCfg.deserialize
  simp only [takeBytes_append _ _ (toBytes_length _ _), ok_bind, ofBytes1 h1, ofBytes1 h2,
    ofBytes1 (show tb < 256 by omega), e1, h5, ofBytes8 h4, e2, takeBytes_append _ _ h6]
  rw [e3, h7]
  rfl

/-- What is written of a table whose storage holds the buckets `c`, and read into any table, gives storage that holds the same buckets. -/
theorem serialize_rep {P : Par (SepStore KB VB) Unit} (L : Laws (sepMap p hk) P) (hrep : P.Rep = SepRep p KRep VRep false)
    (hK : LawfulBucket p.kops knorm KRep) (hV : LawfulBucket p.vops vnorm VRep) {t : Tab (SepStore KB VB) Unit} {c : Cont}
    (htkw : t.kw = P.kw) (htvw : t.vw = P.vw) (hlo : P.lo ≤ t.tb) (hhi : t.tb ≤ P.hi) (hgood : GoodDim P.W (t.dim (sepMap p hk)))
    (hR : SepRep p KRep VRep false t.store (t.dim (sepMap p hk)) c) (hsz : t.size < 2 ^ 64) :
    ∃ bytes, p.serialize hk t = .ok bytes ∧ ∀ (t0 : Tab (SepStore KB VB) Unit) (rest : List Nat),
      ∃ t' full, p.deserialize hk t0 (bytes ++ rest) = .ok (t', rest) ∧ t'.kw = t.kw ∧ t'.vw = t.vw ∧ t'.bpg = 1 ∧ t'.tb = t.tb ∧
        t'.elems = t.elems ∧ P.RepO t'.ovf (2 ^ t.tb) [] full ∧ SepRep p KRep VRep false t'.store (t'.dim (sepMap p hk)) c := by
  have hkw := L.kw_le
  have hvw := L.vw_le
  have htb : t.tb < 64 := Nat.lt_of_le_of_lt hhi L.hi_lt
  have hbc : t.bucketCount = 2 ^ t.tb := by
    unfold Tab.bucketCount
    rw [if_neg (by have := L.lo_pos; omega)]
  have hlen : ∀ b < 2 ^ t.tb, (c b).length < 256 := by
    intro b hb
    have := (hR.bkt b hb).le
    unfold SepCfg.maxSize at this
    omega
  obtain ⟨r, e1, e2⟩ := serBuckets_ok hK hV hgood hR (List.range t.bucketCount)
    (by intro b hb; rw [hbc] at hb; exact List.mem_range.mp hb) List.nodup_range
  have hsizes : (List.range t.bucketCount).mapM (fun b => (do
      let x ← t.store.get b
      return x.size % 256 : Res Nat)) = .ok ((List.range t.bucketCount).map (fun b => (c b).length)) := by
    apply mapM_ok
    intro b hb
    rw [hbc] at hb
    have hb := List.mem_range.mp hb
    rw [hR.get hb, ok_bind, pure_eq_ok, (hR.bkt b hb).size, Nat.mod_eq_of_lt (hlen b hb)]
  refine ⟨_, by unfold SepCfg.serialize; rw [hsizes, ok_bind, e1, ok_bind, pure_eq_ok], ?_⟩
  intro t0 rest
  obtain ⟨full0, h0⟩ := L.ovf.new 0 0
  obtain ⟨t1, full1, g1, g2, g3, g4⟩ := reserveEmpty_ok L
    (t := { t0.clear (sepMap p hk) with kw := t.kw, vw := t.vw, bpg := 1 }) (n := 2 ^ t.tb) (r := t.tb)
    htkw htvw (Nat.le_refl 1) (show 1 ≤ 64 by omega) rfl h0 rfl (reserveBits_pow htb) hlo hhi
  have hr : Tab.reserve (sepMap p hk) { t0.clear (sepMap p hk) with kw := t.kw, vw := t.vw, bpg := 1 } (2 ^ t.tb) =
      .ok t1 := by
    unfold Tab.reserve Tab.reserveWith
    rw [reserveBits_pow htb]
    exact g1
  have hd1 : t1.dim (sepMap p hk) = { t.dim (sepMap p hk) with bpg := t1.bpg } := by
    unfold Tab.dim Tab.hash
    rw [g3, g2.tkw, g2.tvw, htkw, htvw]
  have hR1 : SepRep p KRep VRep false t1.store (t1.dim (sepMap p hk)) (fun _ => []) := by
    have := g2.rep; rwa [hrep] at this
  have hbc1 : t1.bucketCount = t.bucketCount := by unfold Tab.bucketCount; rw [g3]
  have hn1 : t1.store.n = 2 ^ t.tb := by rw [hR1.n]; show 2 ^ t1.tb = _; rw [g3]
  have hsz' : ∀ b < 2 ^ t.tb, (((List.range t.bucketCount).map (fun b => (c b).length))[b]?).getD (t1.store.bkt b).size =
      (c b).length := by
    intro b hb
    rw [hbc]
    simp [hb]
  obtain ⟨s1, f1, f2, f3, f4⟩ := e2 { t1.store with bkt := fun b => { t1.store.bkt b with
    size := (((List.range t.bucketCount).map (fun b => (c b).length))[b]?).getD (t1.store.bkt b).size } } rest hn1 (by
      intro b hb
      rw [hbc] at hb
      exact hsz' b (List.mem_range.mp hb))
  have hdeq : ∀ s bs is, p.deserBuckets (t1.dim (sepMap p hk)) s bs is = p.deserBuckets (t.dim (sepMap p hk)) s bs is := by
    rw [hd1]
    intro s bs
    induction bs generalizing s with
    | nil => intro is; rfl
    | cons b bs ih => intro is; simp only [SepCfg.deserBuckets, ih]
  refine ⟨_, full1, deser_eq (by omega) (by omega) htb hsz hr (by simp [hbc1]) (by rw [hdeq, hbc1]; exact f1), ?_, ?_, g4, g3, rfl, ?_, ?_⟩
  · show t1.kw = t.kw
    rw [g2.tkw, htkw]
  · show t1.vw = t.vw
    rw [g2.tvw, htvw]
  · have := g2.orep
    rw [g3] at this
    exact this
  · refine ⟨?_, ?_⟩
    · show s1.n = 2 ^ t1.tb
      rw [f2, g3]; exact hn1
    · intro b hb
      have hb : b < 2 ^ t.tb := by rw [← g3]; exact hb
      obtain ⟨k1, k2, k3, k4⟩ := f3 b (by rw [hbc]; exact List.mem_range.mpr hb)
      have hB1 := hR1.bkt b (show b < 2 ^ t1.tb by rw [g3]; exact hb)
      have hcap : (s1.bkt b).cap = 0 := by rw [k2]; exact hB1.cap0 rfl
      refine ⟨by rw [k1]; exact hsz' b hb, (hR.bkt b hb).le, ?_, fun _ => hcap, ?_, by simp⟩
      rotate_left
      · intro h
        have := hB1.nil rfl
        rw [k4 h]
        exact this
      intro hne
      refine ⟨(c b).length, ?_, ?_, fun _ => by rw [hcap]; omega, by have := hlen b hb; omega⟩
      · have := (k3 hne).1
        show KRep (s1.bkt b).keys (t1.dim (sepMap p hk)).qw _ _
        rw [hd1]; exact this
      · have := (k3 hne).2
        show VRep (s1.bkt b).vals (t1.dim (sepMap p hk)).vw _ _
        rw [hd1]; exact this

/-- Serialising a table and reading the bytes into any table gives a table in the same state, up to the capacities. -/
theorem serialize_ok {P : Par (SepStore KB VB) Unit} (hP : SepParOK p hk tr W kw vw false P) {t : Tab (SepStore KB VB) Unit}
    {l : List (Nat × Nat)} (h : Inv (sepMap p hk) P t l) (hsz : t.size < 2 ^ 64) :
    ∃ bytes, p.serialize hk t = .ok bytes ∧ ∀ (t0 : Tab (SepStore KB VB) Unit) (rest : List Nat),
      ∃ t', p.deserialize hk t0 (bytes ++ rest) = .ok (t', rest) ∧ Inv (sepMap p hk) P t' l ∧ t'.tb = t.tb := by
  have L := hP.laws
  obtain ⟨knorm, KRep, VRep, hrep, hK, hV⟩ := hP.buckets
  have hkw := L.kw_le
  have hvw := L.vw_le
  rcases h with ⟨h1, h2, h3, h4, h5, h6, rfl, hst, n, full, h7⟩ | ⟨c, o, full, hl, hp⟩
  · -- no buckets
    have hbc : t.bucketCount = 0 := by simp [Tab.bucketCount, h5]
    refine ⟨toBytes 1 t.kw ++ toBytes 1 t.vw ++ toBytes 1 t.tb ++ toBytes 8 t.elems ++ [] ++ [], ?_, ?_⟩
    · simp only [SepCfg.serialize, hbc, List.range_zero, List.mapM_nil, pure_eq_ok, ok_bind, SepCfg.serBuckets]
    · intro t0 rest
      have hr : Tab.reserve (sepMap p hk) { t0.clear (sepMap p hk) with kw := t.kw, vw := t.vw, bpg := 1 } (2 ^ t.tb) =
          .ok { t0.clear (sepMap p hk) with kw := t.kw, vw := t.vw, bpg := 1, store := { n := 2 ^ 0, bkt := fun _ => { keys := p.kops.empty, vals := p.vops.empty, size := 0, cap := 0 } } } := by
        unfold Tab.reserve Tab.reserveWith Tab.reserveEmpty
        have e : reserveBits (2 ^ t.tb) = .ok 0 := by rw [h5]; exact reserveBits_pow (by omega)
        rw [e]
        rfl
      refine ⟨_, deser_eq (by omega) (by omega) (by omega) hsz hr rfl rfl, .inl ⟨h1, h2, ?_⟩, ?_⟩
      · obtain ⟨full0, h0⟩ := L.ovf.new 0 0
        exact ⟨Nat.le_refl 1, show 1 ≤ 64 by omega, rfl, h6, rfl, rfl, 0, full0, h0⟩
      · exact h5.symm
  · have ho : o = [] := hP.noOverflow _ _ _ _ hl.orep
    subst ho
    have hR : SepRep p KRep VRep false t.store (t.dim (sepMap p hk)) c := by have := hl.rep; rwa [hrep] at this
    obtain ⟨bytes, e1, e2⟩ := serialize_rep L hrep hK hV hl.tkw hl.tvw hl.lo hl.hi (hl.good L) hR hsz
    refine ⟨bytes, e1, fun t0 rest => ?_⟩
    obtain ⟨t', full, f1, f2, f3, f4, f5, f6, f7, f8⟩ := e2 t0 rest
    refine ⟨t', f1, .inr ⟨c, [], full, ?_, ?_⟩, f5⟩
    · exact { tkw := by rw [f2, hl.tkw], tvw := by rw [f3, hl.tvw], bpg_pos := by omega, bpg_le := by omega, lo := by rw [f5]; exact hl.lo,
              hi := by rw [f5]; exact hl.hi, rep := by rw [hrep]; exact f8, orep := by rw [f5]; exact f7, cok := by rw [f5]; exact hl.cok,
              ofull := by simp, vals := by rw [f5]; exact hl.vals, ovals := by simp, elems := by rw [f6, f5]; exact hl.elems }
    · rw [f5]; exact hp

end SC
