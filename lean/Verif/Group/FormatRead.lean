import Verif.Sep.FormatRead
/-!
# `group_chaining_table::deserialize` on files of the right format
-/
namespace SC

/-! ## Groups -/

/-- `n` words read from a stream -/
theorem borderRead_bits : ∀ n i (w : Nat → Nat) (bs rest : List Nat), bs.length = 8 * n → (∀ y ∈ bs, y < 256) →
    ∃ w', borderRead i n w (bs ++ rest) = .ok (w', rest) ∧ (∀ j, i ≤ j → j < i + n → w' j < 2 ^ 64) ∧
      (∀ j < 64 * n, (w' (i + j / 64)).testBit (j % 64) = (ofBytes bs).testBit j) ∧ ∀ j, j < i → w' j = w j := by
  intro n
  induction n with
  | zero =>
    intro i w bs rest hl _
    have : bs = [] := List.length_eq_zero_iff.mp (by omega)
    subst this
    exact ⟨w, rfl, fun j h1 h2 => absurd h2 (by omega), fun j hj => absurd hj (by omega), fun _ _ => rfl⟩
  | succ n ih =>
    intro i w bs rest hl hb
    have hlt : (bs.take 8).length = 8 := by rw [List.length_take]; omega
    have hb1 : ∀ y ∈ bs.take 8, y < 256 := fun y hy => hb y (List.mem_of_mem_take hy)
    have hx : ofBytes (bs.take 8) < 2 ^ 64 := by
      have := ofBytes_lt hb1
      rw [hlt] at this
      exact this
    obtain ⟨w', e1, e2, e3, e4⟩ := ih (i + 1) (upd w i (ofBytes (bs.take 8))) (bs.drop 8) rest (by rw [List.length_drop]; omega)
      (fun y hy => hb y (List.mem_of_mem_drop hy))
    have hi : w' i = ofBytes (bs.take 8) := by rw [e4 i (by omega), upd_same]
    refine ⟨w', ?_, ?_, ?_, ?_⟩
    · rw [← List.take_append_drop 8 bs, List.append_assoc, borderRead, takeBytes_append _ _ hlt, ok_bind]
      exact e1
    · intro j h1 h2
      by_cases he : j = i
      · rw [he, hi]; exact hx
      · exact e2 j (by omega) (by omega)
    · intro j hj
      have : ofBytes bs = ofBytes (bs.take 8) + 2 ^ 64 * ofBytes (bs.drop 8) := by
        have := ofBytes_append (bs.take 8) (bs.drop 8)
        rw [List.take_append_drop, hlt] at this
        exact this
      rw [this, Nat.add_comm (ofBytes _), Nat.testBit_two_pow_mul_add _ hx]
      by_cases h : j < 64
      · rw [if_pos h, show i + j / 64 = i by omega, show j % 64 = j by omega, hi]
      · rw [if_neg h, ← e3 (j - 64) (by omega), show i + j / 64 = i + 1 + (j - 64) / 64 by omega, show (j - 64) % 64 = j % 64 by omega]
    · intro j hj
      rw [e4 j (by omega), upd_other _ _ (by omega)]

/-- where the ones of the unary representation are -/
theorem rank_unaryTo {bit : Nat → Bool} {lens : Nat → Nat} : ∀ m, (∀ i < pre lens m + m, (unaryTo lens m)[i]? = some (bit i)) →
    rank bit (pre lens m + m) = m ∧ ∀ g < m, IsSelect bit g (pre lens (g + 1) + g) := by
  intro m
  induction m with
  | zero => intro _; exact ⟨rfl, fun g hg => absurd hg (by omega)⟩
  | succ m ih =>
    intro h
    have e : pre lens (m + 1) = pre lens m + lens m := rfl
    obtain ⟨ih1, ih2⟩ := ih (fun i hi => by
      have := h i (by omega)
      rw [unaryTo_succ, List.getElem?_append_left (by rw [unaryTo_length]; exact hi)] at this
      exact this)
    have hz : ∀ j, j ≤ lens m → rank bit (pre lens m + m + j) = m := by
      intro j
      induction j with
      | zero => intro _; exact ih1
      | succ j ihj =>
        intro hj
        have hb := h (pre lens m + m + j) (by omega)
        rw [unaryTo_succ, List.getElem?_append_right (by rw [unaryTo_length]; omega), unaryTo_length,
          List.getElem?_append_left (by simp only [List.length_replicate]; omega), List.getElem?_replicate, if_pos (by omega)] at hb
        rw [← Nat.add_assoc, rank, ihj (by omega), ← Option.some.inj hb]
        rfl
    have ho : bit (pre lens (m + 1) + m) = true := by
      have hb := h (pre lens (m + 1) + m) (by omega)
      rw [unaryTo_succ, List.getElem?_append_right (by rw [unaryTo_length]; omega), unaryTo_length,
        List.getElem?_append_right (by simp only [List.length_replicate]; omega)] at hb
      simp only [List.length_replicate] at hb
      rw [show pre lens (m + 1) + m - (pre lens m + m) - lens m = 0 by omega] at hb
      exact (Option.some.inj hb).symm
    have hr : rank bit (pre lens (m + 1) + m) = m := by
      rw [show pre lens (m + 1) + m = pre lens m + m + lens m by omega]
      exact hz _ (Nat.le_refl _)
    refine ⟨?_, ?_⟩
    · rw [show pre lens (m + 1) + (m + 1) = pre lens (m + 1) + m + 1 by omega, rank, hr, ho]
      rfl
    · intro g hg
      by_cases he : g = m
      · subst he; exact ⟨ho, hr⟩
      · exact ih2 g (by omega)

/-- a border with the bits of the unary representation -/
theorem borderRep_of_bits {b : Border} {bpg : Nat} {lens : Nat → Nat} (hout : ∀ g, bpg ≤ g → lens g = 0)
    (hlen : b.len = ceilDiv (pre lens bpg + 1 + bpg) 64) (hw : ∀ i < b.len, b.w i < 2 ^ 64)
    (h : ∀ i (hi : i < (unary ((List.range bpg).map lens)).length), b.bit i = (unary ((List.range bpg).map lens))[i]) :
    BorderRep b bpg (pre lens bpg) lens := by
  have e : unary ((List.range bpg).map lens) = unaryTo lens bpg ++ [true] := rfl
  have hl : (unary ((List.range bpg).map lens)).length = pre lens bpg + bpg + 1 := by
    rw [e, List.length_append, unaryTo_length]; rfl
  have h' : ∀ i < pre lens bpg + bpg + 1, (unaryTo lens bpg ++ [true])[i]? = some (b.bit i) := by
    intro i hi
    have := h i (by omega)
    rw [this, ← e]
    exact List.getElem?_eq_getElem _
  obtain ⟨r1, r2⟩ := rank_unaryTo (bit := b.bit) (lens := lens) bpg (fun i hi => by
    have := h' i (by omega)
    rw [List.getElem?_append_left (by rw [unaryTo_length]; exact hi)] at this
    exact this)
  refine ⟨rfl, hout, hlen, hw, ?_⟩
  intro g hg
  by_cases he : g = bpg
  · subst he
    have e2 : pre lens (g + 1) = pre lens g := by rw [pre, hout g (Nat.le_refl _)]; rfl
    rw [e2]
    refine ⟨?_, r1⟩
    have := h' (pre lens g + g) (by omega)
    rw [List.getElem?_append_right (by rw [unaryTo_length]), unaryTo_length, Nat.sub_self] at this
    exact (Option.some.inj this).symm
  · exact r2 g (by omega)

theorem core_read {c : GrpCfg} {w : Nat} {xs bytes : List Nat} (h : packedFmt 64 w xs bytes) (rest : List Nat) :
    ∃ b, coreDeserialize c w xs.length (bytes ++ rest) = .ok (b, rest) ∧ CoreRep false b w xs := by
  obtain ⟨h1, h2, h3⟩ := h
  have e1 : bytes.length = 8 * ceilDiv (w * xs.length) 64 := by rw [h1, Nat.mul_comm w]
  have hge := ceilDiv_mul_ge (xs.length * w) (show 0 < 64 by omega)
  refine ⟨some ⟨64 * ceilDiv (w * xs.length) 64, bytesMem c.junk bytes⟩, ?_, _, rfl, Nat.dvd_mul_right _ _, ?_, by simp, ?_⟩
  · simp only [coreDeserialize, takeBytes_append _ _ e1, ok_bind, pure_eq_ok]
  · show _ ≤ 64 * ceilDiv (w * xs.length) 64
    rw [Nat.mul_comm w]
    omega
  · intro i hi
    have := idx_end (w := w) hi
    rw [Nat.mul_comm w] at e1
    rw [readBits_bytesMem _ h2 (by omega), h3 i hi]

variable {c : GrpCfg} {hk : HashKind} {kw vw : Nat}

/-- Reading the bytes of a group with entries. -/
theorem group_read {bpg qw vw : Nat} {cs : Cont} (hout : ∀ g, bpg ≤ g → cs g = []) (hne : flat cs bpg ≠ [])
    (hle : (flat cs bpg).length ≤ 255) {bs ks vs : List Nat} (hb : bitsFmt (unary ((List.range bpg).map (fun g => (cs g).length))) bs)
    (hK : packedFmt 64 qw ((flat cs bpg).map Prod.fst) ks) (hV : packedFmt 64 vw ((flat cs bpg).map Prod.snd) vs) (rest : List Nat) :
    ∃ y, Group.deserialize c bpg qw vw (toBytes 4 (flat cs bpg).length ++ bs ++ ks ++ vs ++ rest) = .ok (y, rest) ∧
      SlotRep false y bpg qw vw cs := by
  have h0 : ¬ (flat cs bpg).length = 0 := fun e => hne (List.length_eq_zero_iff.mp e)
  obtain ⟨b1, b2, b3⟩ := hb
  have hul : (unary ((List.range bpg).map (fun g => (cs g).length))).length = (flat cs bpg).length + 1 + bpg := by
    rw [unary_length, pre_range, flat_length]
    simp only [List.length_map, List.length_range]
    omega
  have hbl : bs.length = 8 * ceilDiv ((flat cs bpg).length + 1 + bpg) 64 := by rw [b1, hul]
  obtain ⟨w', e1, e2, e3, _⟩ := borderRead_bits _ 0 (junkWord c) bs (ks ++ (vs ++ rest)) hbl b2
  obtain ⟨kb, g1, g2⟩ := core_read (c := c) hK (vs ++ rest)
  obtain ⟨vb, g3, g4⟩ := core_read (c := c) hV rest
  rw [List.length_map] at g1 g3
  refine ⟨{ size := (flat cs bpg).length, keys := kb, vals := vb,
            border := some ⟨ceilDiv ((flat cs bpg).length + 1 + bpg) 64, w'⟩ }, ?_, .inr ⟨?_, hle⟩⟩
  · rw [show toBytes 4 (flat cs bpg).length ++ bs ++ ks ++ vs ++ rest = toBytes 4 (flat cs bpg).length ++ (bs ++ (ks ++ (vs ++ rest))) by
      simp only [List.append_assoc]]
    simp only [Group.deserialize, takeBytes_append _ _ (toBytes_length _ _), ok_bind,
      ofBytes4 (show (flat cs bpg).length < 2 ^ 32 by omega), if_neg h0, e1]
    rw [g1]
    simp only [ok_bind, g3, pure_eq_ok]
  · refine ⟨rfl, by omega, hout, g2, g4, _, rfl, ?_⟩
    rw [flat_length] at e2 e3 hul ⊢
    refine borderRep_of_bits (fun g hg => by rw [hout g hg]; rfl) rfl (fun i hi => e2 i (by omega) (by simpa using hi)) ?_
    intro i hi
    have hlt : i < 64 * ceilDiv (pre (fun g => (cs g).length) bpg + 1 + bpg) 64 := by
      have := ceilDiv_mul_ge (pre (fun g => (cs g).length) bpg + 1 + bpg) (show 0 < 64 by omega)
      omega
    have := e3 i hlt
    rw [Nat.zero_add, b3 i hi] at this
    exact this

/-! ## Tables -/

/-- The loop over the groups. -/
theorem grpDeserGroups_file {H : HashMapping} {d : Dim} {row : Nat → List (Nat × Nat)} (hq : d.qw = H.remainderWidth d.tb)
    {j n : Nat} {bytes : List Nat} (hB : GroupBlocks H d.tb d.vw d.bpg row j n bytes) :
    ∀ (s0 : GrpStore) rest, j + n ≤ s0.n → ∃ s1, grpDeserGroups c d j n s0 (bytes ++ rest) = .ok (s1, rest) ∧ s1.n = s0.n ∧
      (∀ i, j ≤ i → i < j + n → SlotRep false (s1.grp i) d.bpg d.qw d.vw (localCont d.bpg (fun b => quots H d.tb (row b)) i)) ∧
      ∀ i, i < j → s1.grp i = s0.grp i := by
  have hflat : ∀ j, flat (localCont d.bpg (fun b => quots H d.tb (row b)) j) d.bpg =
      (groupRow row d.bpg j).map (fun e => (quotOf H d.tb e.1, e.2)) := by
    intro j
    rw [local_row]
    simp only [groupRow, quots, List.map_flatMap]
  induction hB with
  | nil => intro s0 rest _; exact ⟨s0, rfl, rfl, fun i h1 h2 => absurd h2 (by omega), fun _ _ => rfl⟩
  | @empty j n bytes h0 _ ih =>
    intro s0 rest hs
    obtain ⟨s1, r1, r2, r3, r4⟩ := ih (s0.set j Group.none) rest (show j + 1 + n ≤ s0.n by omega)
    refine ⟨s1, ?_, r2, ?_, ?_⟩
    · rw [List.append_assoc]
      have : Group.deserialize c d.bpg d.qw d.vw ([0, 0, 0, 0] ++ (bytes ++ rest)) = .ok (Group.none, bytes ++ rest) := by
        simp only [Group.deserialize, takeBytes_append (n := 4) [0, 0, 0, 0] (bytes ++ rest) rfl, ok_bind]
        rfl
      simp only [grpDeserGroups, GrpStore.get, if_pos (show j < s0.n by omega), ok_bind, this]
      exact r1
    · intro i h1 h2
      by_cases he : i = j
      · rw [r4 i (by omega), he]
        show SlotRep false (upd s0.grp j Group.none j) _ _ _ _
        rw [upd_same]
        refine .inl ⟨rfl, ?_⟩
        intro g
        have hz := List.flatMap_eq_nil_iff.mp h0
        unfold localCont
        split
        · rename_i hg
          have := hz g (List.mem_range.mpr hg)
          simp only [this, quots, List.map_nil]
        · rfl
      · exact r3 i (by omega) (by omega)
    · intro i hi
      rw [r4 i (by omega)]
      exact upd_other _ _ (by omega)
  | @block j n bs ks vs bytes hne hle hb hK hV _ ih =>
    intro s0 rest hs
    have hl : (flat (localCont d.bpg (fun b => quots H d.tb (row b)) j) d.bpg).length = (groupRow row d.bpg j).length := by
      rw [hflat, List.length_map]
    obtain ⟨y, y1, y2⟩ := group_read (c := c) (bpg := d.bpg) (qw := d.qw) (vw := d.vw)
      (cs := localCont d.bpg (fun b => quots H d.tb (row b)) j) (bs := bs) (ks := ks) (vs := vs) (local_out _ _ _)
      (by rw [hflat]; simpa using hne) (by rw [hl]; exact hle) (by
        have : (List.range d.bpg).map (fun g => (localCont d.bpg (fun b => quots H d.tb (row b)) j g).length) =
            (List.range d.bpg).map (fun g => (row (j * d.bpg + g)).length) := by
          apply List.map_congr_left
          intro g hg
          unfold localCont
          rw [if_pos (List.mem_range.mp hg)]
          simp only [quots, List.length_map]
        rw [this]; exact hb)
      (by rw [hflat, List.map_map, hq]; exact hK) (by rw [hflat, List.map_map]; exact hV) (bytes ++ rest)
    rw [hl] at y1
    obtain ⟨s1, r1, r2, r3, r4⟩ := ih (s0.set j y) rest (show j + 1 + n ≤ s0.n by omega)
    refine ⟨s1, ?_, r2, ?_, ?_⟩
    · rw [List.append_assoc]
      simp only [grpDeserGroups, GrpStore.get, if_pos (show j < s0.n by omega), ok_bind, y1]
      exact r1
    · intro i h1 h2
      by_cases he : i = j
      · rw [r4 i (by omega), he]
        show SlotRep false (upd s0.grp j y j) _ _ _ _
        rw [upd_same]; exact y2
      · exact r3 i (by omega) (by omega)
    · intro i hi
      rw [r4 i (by omega)]
      exact upd_other _ _ (by omega)

/-- Reading a file of the right format gives a table with the pairs of the file, in this order. -/
theorem grp_read_file {e : GrpCfg} (L : Laws (grpMapE c e hk) (grpPar false hk kw vw)) {tb bpg : Nat} {row : Nat → List (Nat × Nat)}
    {bytes : List Nat} (hf : GrpFile (hk.mapping kw) kw vw tb bpg row bytes) (hbpg : 1 ≤ bpg ∧ bpg ≤ 64)
    (htb : (List.range (2 ^ tb)).flatMap row = [] ∨ (hk.lo kw 64 ≤ tb ∧ tb ≤ hk.width kw - 1))
    (hkeys : ∀ x ∈ (List.range (2 ^ tb)).flatMap row, x.1 < 2 ^ kw ∧ x.2 < 2 ^ vw)
    (hnd : (((List.range (2 ^ tb)).flatMap row).map Prod.fst).Nodup)
    (hsz : ((List.range (2 ^ tb)).flatMap row).length < 2 ^ 64) (t0 : Tab GrpStore Unit) (rest : List Nat) :
    ∃ t', grpDeserialize c hk t0 (bytes ++ rest) = .ok (t', rest) ∧
      Inv (grpMap c hk) (grpPar false hk kw vw) t' ((List.range (2 ^ tb)).flatMap row) ∧ t'.bpg = bpg ∧
      ((List.range (2 ^ tb)).flatMap row ≠ [] → t'.tb = tb) ∧
      t'.pairs (grpMap c hk) = .ok ((List.range (2 ^ tb)).flatMap row) := by
  have hkw : kw ≤ 64 := L.kw_le
  have hvw : vw ≤ 64 := L.vw_le
  obtain ⟨hmem, hout, body, hbytes, hB⟩ := hf
  generalize hl0 : (List.range (2 ^ tb)).flatMap row = l at *
  by_cases he : l = []
  · rw [if_pos he] at hB
    subst he
    subst hB
    have hinv : Inv (grpMap c hk) (grpPar false hk kw vw) { t0.clear (grpMap c hk) with kw := kw, vw := vw, elems := 0, bpg := bpg } [] :=
      .inl ⟨rfl, rfl, hbpg.1, hbpg.2, rfl, rfl, rfl, rfl, 0, fun _ => false, rfl, rfl⟩
    refine ⟨{ t0.clear (grpMap c hk) with kw := kw, vw := vw, elems := 0, bpg := bpg }, ?_, hinv, rfl, fun h => absurd rfl h, ?_⟩
    · rw [hbytes]
      unfold grpDeserialize
      simp only [List.append_assoc, List.nil_append, takeBytes_append _ _ (toBytes_length _ _), ok_bind, ofBytes1 (show kw < 256 by omega),
        ofBytes1 (show vw < 256 by omega), List.length_nil, ofBytes8 (show 0 < 2 ^ 64 by omega), ofBytes1 (show bpg < 256 by omega), if_true, pure_eq_ok]
    · rfl
  · rw [if_neg he] at hB
    rcases htb with h | ⟨hlo, hhi⟩
    · exact absurd h he
    have htb64 : tb < 64 := by have := L.hi_lt; exact Nat.lt_of_le_of_lt hhi this
    have htb0 : tb ≠ 0 := by have : 1 ≤ hk.lo kw 64 := L.lo_pos; omega
    obtain ⟨t1, full1, g1, g2, g3, g4⟩ := reserveEmpty_ok L
      (t := { t0.clear (grpMap c hk) with kw := kw, vw := vw, bpg := bpg }) (n := 2 ^ tb) (r := tb) (m := 0)
      (full := fun _ => false) rfl rfl hbpg.1 hbpg.2 rfl ⟨rfl, rfl⟩ rfl (reserveBits_pow htb64) hlo hhi
    have hmap : LawfulMapping (hk.mapping kw) kw tb := by
      have := g2.map_ok L
      rw [g3] at this
      exact this
    have hbc1 : t1.bucketCount = 2 ^ tb := by rw [g2.bc L, g3]
    rw [grpMapE, reserveEmpty_withErase] at g1
    rw [grpMapE, Live_withErase] at g2
    have hr : Tab.reserve (grpMap c hk) { t0.clear (grpMap c hk) with kw := kw, vw := vw, elems := l.length, bpg := bpg }
        (2 ^ tb) = .ok { t1 with elems := l.length } := by
      unfold Tab.reserve Tab.reserveWith
      rw [reserveBits_pow htb64]
      exact reserveEmpty_elems (grpMap c hk) { t0.clear (grpMap c hk) with kw := kw, vw := vw, bpg := bpg } t1 _ l.length g1
    have tkw : t1.kw = kw := g2.tkw
    have tvw : t1.vw = vw := g2.tvw
    have hdq : (Tab.dim (grpMap c hk) { t1 with elems := l.length }).qw = (hk.mapping kw).remainderWidth tb := by
      unfold Tab.dim Tab.hash
      simp only [g3, tkw]
      rfl
    have hdt : (Tab.dim (grpMap c hk) { t1 with elems := l.length }).tb = tb := g3
    have hdv : (Tab.dim (grpMap c hk) { t1 with elems := l.length }).vw = vw := tvw
    have hdb : (Tab.dim (grpMap c hk) { t1 with elems := l.length }).bpg = bpg := g4
    have hR1 : GrpRep false t1.store (t1.dim (grpMap c hk)) (fun _ => []) := g2.rep
    have hn1 : t1.store.n = 2 ^ tb / bpg + 1 := by
      rw [hR1.n]
      show 2 ^ t1.tb / t1.bpg + 1 = _
      rw [g3, g4]
    have hc1 : grpCount { t1 with elems := l.length } = 2 ^ tb / bpg + 1 := by
      unfold grpCount
      rw [if_neg (show ¬ t1.tb = 0 by omega)]
      show t1.bucketCount / t1.bpg + 1 = _
      rw [hbc1, g4]
    have hent : ∀ b < 2 ^ tb, ∀ x ∈ row b, x ∈ l ∧ x.1 < 2 ^ kw ∧ x.2 < 2 ^ vw ∧
        (hk.mapping kw).map x.1 tb = .ok (quotOf (hk.mapping kw) tb x.1, b) ∧
        invKey (hk.mapping kw) tb b (quotOf (hk.mapping kw) tb x.1) = x.1 := by
      intro b hb x hx
      have hm : x ∈ l := by rw [← hl0]; exact List.mem_flatMap.mpr ⟨b, List.mem_range.mpr hb, hx⟩
      obtain ⟨q, hq⟩ := hmem b x hx
      have hq' : quotOf (hk.mapping kw) tb x.1 = q := by unfold quotOf; rw [hq]
      obtain ⟨i1, i2, i3, i4⟩ := invKey_of_map hmap (hkeys x hm).1 hq
      rw [hq']
      exact ⟨hm, (hkeys x hm).1, (hkeys x hm).2, hq, i1⟩
    obtain ⟨s1, f1, f2, f3, _⟩ := grpDeserGroups_file (c := c) (H := hk.mapping kw) (d := Tab.dim (grpMap c hk) { t1 with elems := l.length })
      (row := row) (bytes := body) (by rw [hdq, hdt]) (by rw [hdt, hdv, hdb]; exact hB) t1.store rest (by rw [hn1]; omega)
    have hbE : ∀ b < 2 ^ tb, bEnts (hk.mapping kw) tb b (quots (hk.mapping kw) tb (row b)) = row b := by
      intro b hb
      unfold bEnts quots
      rw [List.map_map]
      have : (row b).map ((fun e => (invKey (hk.mapping kw) tb b e.1, e.2)) ∘ fun e => (quotOf (hk.mapping kw) tb e.1, e.2)) =
          (row b).map id := by
        apply List.map_congr_left
        intro x hx
        simp only [Function.comp_apply, (hent b hb x hx).2.2.2.2, id]
      rw [this, List.map_id]
    have hst : stored (hk.mapping kw) tb (fun b => quots (hk.mapping kw) tb (row b)) = l := by
      rw [← hl0]
      unfold stored
      exact flatMap_congr_mem (fun b hb => hbE b (List.mem_range.mp hb))
    have hlive : Live (grpMap c hk) (grpPar false hk kw vw) { t1 with elems := l.length, store := s1 }
        (fun b => quots (hk.mapping kw) tb (row b)) [] full1 := by
      refine { tkw := g2.tkw, tvw := g2.tvw, bpg_pos := g2.bpg_pos, bpg_le := g2.bpg_le, lo := g2.lo, hi := g2.hi,
               rep := ?_, orep := g2.orep, cok := ?_, ofull := by simp, vals := ?_, ovals := by simp, elems := ?_ }
      · show GrpRep false s1 (Tab.dim (grpMap c hk) { t1 with elems := l.length }) _
        refine ⟨by rw [f2, hdt, hdb, hn1], ?_, ?_⟩
        · intro b hb
          rw [hdt] at hb
          simp only [hout b hb, quots, List.map_nil]
        · intro j hj
          rw [f2, hn1] at hj
          have := f3 j (by omega) (by omega)
          rw [hdt] at this
          exact this
      · show COK (hk.mapping kw) kw t1.tb _ []
        rw [g3]
        refine ⟨?_, ?_, by simp, by simp⟩
        · intro b hb x hx
          obtain ⟨y, hy, rfl⟩ := List.mem_map.mp hx
          obtain ⟨_, h2, _, h4, _⟩ := hent b hb y hy
          exact ⟨y.1, h2, h4⟩
        · intro b hb
          have hrow : ((row b).map Prod.fst).Nodup := by
            refine List.Nodup.sublist (List.Sublist.map _ ?_) hnd
            rw [← hl0, List.flatMap_def]
            exact List.sublist_flatten_of_mem (List.mem_map.mpr ⟨b, List.mem_range.mpr hb, rfl⟩)
          unfold quots
          rw [List.map_map]
          rw [List.Nodup, List.pairwise_map] at hrow ⊢
          refine List.Pairwise.imp_of_mem ?_ hrow
          intro x y hx hy hxy e
          simp only [Function.comp_apply] at e
          apply hxy
          rw [← (hent b hb x hx).2.2.2.2, ← (hent b hb y hy).2.2.2.2, e]
      · intro b hb x hx
        have hb' : b < 2 ^ tb := by rw [← g3]; exact hb
        obtain ⟨y, hy, rfl⟩ := List.mem_map.mp hx
        exact Nat.mod_eq_of_lt (hent b hb' y hy).2.2.1
      · show l.length = (ents (hk.mapping kw) t1.tb _ []).length
        rw [g3]
        show _ = (stored (hk.mapping kw) tb _ ++ []).length
        rw [hst, List.append_nil]
    refine ⟨_, by
      rw [hbytes]
      exact grpDeser_eq (by omega) (by omega) htb64 hsz (by omega) (fun h => he (List.length_eq_zero_iff.mp h)) hr (by rw [hc1]; exact f1),
      .inr ⟨_, [], full1, hlive, ?_⟩, g4, fun _ => g3, ?_⟩
    · show l.Perm (ents (hk.mapping kw) t1.tb _ [])
      rw [g3]
      show l.Perm (stored (hk.mapping kw) tb _ ++ [])
      rw [hst, List.append_nil]
    · have hlive' := Live_withErase (f := (grpOps e).eraseAt) |>.mpr hlive
      obtain ⟨n, v1, v2⟩ := Live.visit_begin (g := grpMapE c e hk) L hlive' (f := l.length + 1) (Nat.lt_succ_self _)
      have hst' : stored (hk.mapping kw) t1.tb (fun b => quots (hk.mapping kw) tb (row b)) = l := by rw [g3]; exact hst
      have : Tab.pairs (grpMapE c e hk) { t1 with elems := l.length, store := s1 } = .ok l := by
        unfold Tab.pairs
        rw [v1, ok_bind]
        exact v2.trans (congrArg Except.ok hst')
      rw [grpMapE, pairs_withErase] at this
      exact this

end SC
