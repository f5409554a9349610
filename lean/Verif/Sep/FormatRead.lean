import Verif.Group.Format
/-!
# `separate_chaining_table::deserialize` on files of the right format
-/
namespace SC

variable {KB VB : Type}

/-! ## Buckets -/

theorem bytesMem_testBit (junk : Bits) : ∀ {bs : List Nat} {i : Nat}, (∀ y ∈ bs, y < 256) → i < 8 * bs.length →
    bytesMem junk bs i = (ofBytes bs).testBit i
  | [], i, _, hi => by simp at hi
  | y :: bs, i, h, hi => by
    have hy := h y (by simp)
    have hlt : y < 2 ^ 8 := hy
    rw [ofBytes, Nat.add_comm, show (256 : Nat) = 2 ^ 8 by rfl, Nat.testBit_two_pow_mul_add _ hlt]
    by_cases h8 : i < 8
    · rw [if_pos h8]
      simp [bytesMem, Nat.div_eq_of_lt h8, Nat.mod_eq_of_lt h8]
    · rw [if_neg h8, ← bytesMem_testBit junk (fun z hz => h z (by simp [hz])) (by rw [List.length_cons] at hi; omega)]
      have e1 : i / 8 = (i - 8) / 8 + 1 := by omega
      have e2 : (i - 8) % 8 = i % 8 := by omega
      simp only [bytesMem, e1, List.getElem?_cons_succ, e2]
      cases he : bs[(i - 8) / 8]? with
      | some x => rfl
      | none =>
        rw [List.getElem?_eq_none_iff] at he
        rw [List.length_cons] at hi
        omega

theorem readBits_bytesMem (junk : Bits) {bs : List Nat} {p w : Nat} (h : ∀ y ∈ bs, y < 256) (hp : p + w ≤ 8 * bs.length) :
    readBits (bytesMem junk bs) p w = ofBytes bs / 2 ^ p % 2 ^ w := by
  apply Nat.eq_of_testBit_eq
  intro i
  rw [Nat.testBit_mod_two_pow, Nat.testBit_div_two_pow, testBit_readBits]
  by_cases hi : i < w
  · rw [bytesMem_testBit junk h (by omega), Nat.add_comm p i]
  · simp [hi]

/-- reading bytes of the format of the bucket class gives a bucket with these entries -/
def DeserOK {B : Type} (ops : BucketOps B) (norm : Nat → Nat → Nat) (Rep : B → Nat → Nat → List Nat → Prop) (f : Fmt) : Prop :=
  ∀ w xs bytes rest, 1 ≤ w → (∀ x ∈ xs, norm w x = x) → f w xs bytes →
    ∃ b, ops.deserialize xs.length w (bytes ++ rest) = .ok (b, rest) ∧ Rep b w xs.length xs

theorem deser_plain {s : Nat} (h8 : 8 ∣ s) {ops : BucketOps PlainB} (h : ops.deserialize = (plainOps s).deserialize) :
    DeserOK ops (fun _ x => x % 2 ^ s) (PlainRep s) (fixedFmt (s / 8)) := by
  intro w xs bytes rest _ hx hf
  have hlt : ∀ x ∈ xs, x < 2 ^ s := by
    intro x hm
    rw [← hx x hm]
    exact Nat.mod_lt _ (Nat.two_pow_pos _)
  have key : ∀ xs : List Nat, (∀ x ∈ xs, x < 2 ^ s) →
      plainDeserialize s xs.length (xs.flatMap (toBytes (s / 8)) ++ rest) = .ok (xs.map some, rest) := by
    intro xs
    induction xs with
    | nil => intro _; rfl
    | cons y ys ih =>
      intro hy
      simp only [List.length_cons, plainDeserialize, List.flatMap_cons, List.append_assoc]
      rw [takeBytes_append _ _ (toBytes_length _ _)]
      simp only [ok_bind, ih (fun z hz => hy z (by simp [hz])), pure_eq_ok]
      rw [ofBytes_toBytes_of_lt h8 (hy y (by simp))]
      rfl
  refine ⟨some (xs.map some), ?_, [], by simp, by simp, hlt⟩
  rw [h, show bytes = _ from hf]
  simp only [plainOps, key xs hlt, ok_bind, pure_eq_ok]

theorem deser_var {c : VarCfg} (hc : c.good) : DeserOK (varOps c) (fun w x => x % 2 ^ w) (VarRep c) (packedFmt c.sb) := by
  intro w xs bytes rest hw _ ⟨h1, h2, h3⟩
  have h8 : 8 ∣ c.sb := by rcases hc.1 with h | h | h | h <;> rw [h] <;> decide
  have e1 : bytes.length = varBits c.sb xs.length w / 8 := by
    obtain ⟨j, hj⟩ := h8
    rw [h1, varBits, hj, Nat.mul_assoc, Nat.mul_div_cancel_left _ (by omega), Nat.mul_div_cancel_left _ (by omega)]
  have e2 : 8 * bytes.length = varBits c.sb xs.length w := by
    rw [e1]
    exact Nat.mul_div_cancel' (Nat.dvd_trans h8 (Nat.dvd_mul_right _ _))
  refine ⟨some ⟨varBits c.sb xs.length w, bytesMem c.junk bytes⟩, ?_, _, rfl, Nat.dvd_mul_right _ _, varBits_ge _ _ hc.pos,
    Nat.le_refl _, ?_⟩
  · simp only [varOps, varDeserialize]
    rw [takeBytes_append _ _ e1]
    rfl
  · intro i hi
    have := idx_end (w := w) hi
    have := varBits_ge xs.length w hc.pos
    rw [readBits_bytesMem _ h2 (by omega), h3 i hi]

theorem KeyFmt.read {B : Type} {ops : BucketOps B} {W : Nat} {f : Fmt} (h : KeyFmt B ops W f) :
    ∃ norm Rep, LawfulBucket ops norm Rep ∧ LawfulFind ops norm Rep ∧ (∀ w x, w ≤ W → x < 2 ^ w → norm w x = x) ∧
      DeserOK ops norm Rep f := by
  cases h with
  | plain hs => exact ⟨_, _, lawful_plain (dvd8 hs), lawful_plain_find _, fun w x h1 h2 => mod_of_width h1 h2, deser_plain (dvd8 hs) rfl⟩
  | «class» hs => exact ⟨_, _, lawful_class (dvd8 hs), lawful_class_find _, fun w x h1 h2 => mod_of_width h1 h2, deser_plain (dvd8 hs) rfl⟩
  | avx hs => exact ⟨_, _, lawful_avx hs, lawful_avx_find hs, fun w x h1 h2 => mod_of_width h1 h2, deser_plain (dvd8 hs) rfl⟩
  | varwidth hc hf => exact ⟨_, _, lawful_var hc hf, lawful_var_find hc, fun w x _ h2 => Nat.mod_eq_of_lt h2, deser_var hc⟩

theorem ValueFmt.read {B : Type} {ops : BucketOps B} {tr : Nat → Nat → Nat} {f : Fmt} (h : ValueFmt B ops tr f) :
    (∃ Rep, LawfulBucket ops tr Rep ∧ DeserOK ops tr Rep f) ∧ ∀ w x, tr w (tr w x) = tr w x := by
  cases h with
  | plain hs => exact ⟨⟨_, lawful_plain (dvd8 hs), deser_plain (dvd8 hs) rfl⟩, fun w x => Nat.mod_mod _ _⟩
  | «class» hs => exact ⟨⟨_, lawful_class (dvd8 hs), deser_plain (dvd8 hs) rfl⟩, fun w x => Nat.mod_mod _ _⟩
  | varwidth hc hf => exact ⟨⟨_, lawful_var hc hf, deser_var hc⟩, fun w x => Nat.mod_mod _ _⟩
  | null =>
    refine ⟨⟨_, lawful_null, ?_⟩, fun _ _ => rfl⟩
    intro w xs bytes rest _ hx hf
    refine ⟨(), ?_, fun x hm => (hx x hm).symm, Nat.le_refl _⟩
    rw [show bytes = [] from hf]
    rfl

/-! ## Tables -/

variable {p : SepCfg KB VB} {hk : HashKind} {tr : Nat → Nat → Nat} {W kw vw : Nat} {fk fv : Fmt}

/-- the invariant of the tables, together with what their buckets read -/
theorem SepOK.parRead (h : SepOK p hk tr W kw vw) (hf : KeyFmt KB p.kops W fk) (hf' : ValueFmt VB p.vops tr fv) :
    ∃ P, SepParOK p hk tr W kw vw false P ∧ ∃ knorm KRep VRep, P.Rep = SepRep p KRep VRep false ∧
      (∀ w x, w ≤ W → x < 2 ^ w → knorm w x = x) ∧ DeserOK p.kops knorm KRep fk ∧ DeserOK p.vops tr VRep fv := by
  obtain ⟨knorm, KRep, h1, h2, h3, h3'⟩ := hf.read
  obtain ⟨⟨VRep, h4, h4'⟩, h5⟩ := hf'.read
  have hM : 2 ≤ p.maxSize := by have := h.max; unfold SepCfg.maxSize; omega
  obtain ⟨L, hg⟩ := sep_laws (ov := dummyOverflow) h1 h2 h4 h3 (h5 vw) (lawful_dummy (tr vw)) (h5 vw) hM h.hash h.vw_pos
    h.vw_le false
  exact ⟨_, ⟨L, hg, ⟨KRep, VRep, rfl⟩, knorm, KRep, VRep, rfl, h1, h4⟩, knorm, KRep, VRep, rfl, h3, h3', h4'⟩

/-- the entries of a bucket: quotients and values -/
def quots (H : HashMapping) (tb : Nat) (row : List (Nat × Nat)) : List (Nat × Nat) := row.map (fun e => (quotOf H tb e.1, e.2))

theorem deserBuckets_file {KRep : KB → Nat → Nat → List Nat → Prop} {VRep : VB → Nat → Nat → List Nat → Prop}
    {knorm vnorm : Nat → Nat → Nat} {H : HashMapping} (hK : DeserOK p.kops knorm KRep fk) (hV : DeserOK p.vops vnorm VRep fv) {d : Dim}
    (hq : d.qw = H.remainderWidth d.tb) (hq1 : 1 ≤ d.qw) (hv1 : 1 ≤ d.vw) {b : Nat} {rows : List (List (Nat × Nat))}
    {bytes : List Nat} (hB : Blocks H d.tb d.vw fk fv b rows bytes)
    (hn : ∀ row ∈ rows, ∀ e ∈ row, knorm d.qw (quotOf H d.tb e.1) = quotOf H d.tb e.1 ∧ vnorm d.vw e.2 = e.2) :
    ∀ (s0 : SepStore KB VB) (rest : List Nat), b + rows.length ≤ s0.n →
      (∀ i (hi : i < rows.length), (s0.bkt (b + i)).size = rows[i].length) →
      ∃ s1, p.deserBuckets d s0 (List.range' b rows.length) (bytes ++ rest) = .ok (s1, rest) ∧ s1.n = s0.n ∧
        (∀ i (hi : i < rows.length), (s1.bkt (b + i)).size = (s0.bkt (b + i)).size ∧ (s1.bkt (b + i)).cap = (s0.bkt (b + i)).cap ∧
          (rows[i] ≠ [] → KRep (s1.bkt (b + i)).keys d.qw rows[i].length ((quots H d.tb rows[i]).map Prod.fst) ∧
            VRep (s1.bkt (b + i)).vals d.vw rows[i].length ((quots H d.tb rows[i]).map Prod.snd)) ∧
          (rows[i] = [] → s1.bkt (b + i) = s0.bkt (b + i))) ∧
        ∀ x, x < b ∨ b + rows.length ≤ x → s1.bkt x = s0.bkt x := by
  induction hB with
  | nil => intro s0 rest _ _; exact ⟨s0, rfl, rfl, fun i hi => absurd hi (by simp), fun _ _ => rfl⟩
  | @empty b rows bytes _ ih =>
    intro s0 rest hs hsz
    rw [List.length_cons] at hs
    obtain ⟨s1, f1, f2, f3, f4⟩ := ih (fun row hr => hn row (by simp [hr])) s0 rest (by omega) (fun i hi => by
      have := hsz (i + 1) (by simpa using hi)
      rw [show b + 1 + i = b + (i + 1) by omega]
      simpa using this)
    have hz0 : (s0.bkt b).size = 0 := hsz 0 (by simp)
    have hg : s0.get b = .ok (s0.bkt b) := by unfold SepStore.get; rw [if_pos (by omega)]
    refine ⟨s1, ?_, f2, ?_, ?_⟩
    · rw [List.length_cons, List.range'_succ]
      simp only [SepCfg.deserBuckets, hg, ok_bind, hz0, if_true, f1]
    · intro i hi
      cases i with
      | zero =>
        have e : s1.bkt (b + 0) = s0.bkt (b + 0) := f4 _ (by omega)
        rw [e]
        exact ⟨rfl, rfl, fun h => absurd rfl h, fun _ => rfl⟩
      | succ i =>
        have := f3 i (by simpa using hi)
        rw [show b + 1 + i = b + (i + 1) by omega] at this
        simpa using this
    · intro x hx
      rw [List.length_cons] at hx
      exact f4 x (by omega)
  | @block b row qs rows kb vb bytes hne hm hkb hvb _ ih =>
    intro s0 rest hs hsz
    rw [List.length_cons] at hs
    have hqs : (quots H d.tb row).map Prod.fst = qs := by
      have e : ∀ e ∈ row.map (fun e => H.map e.1 d.tb), ∃ q, e = .ok (q, b) := by
        intro e he
        rw [hm] at he
        obtain ⟨q, _, rfl⟩ := List.mem_map.mp he
        exact ⟨q, rfl⟩
      have e2 := congrArg (List.map (fun r : Res (Nat × Nat) => match r with | .ok (q, _) => q | .error _ => 0)) hm
      simp only [List.map_map] at e2
      unfold quots
      rw [List.map_map]
      have e3 : qs.map ((fun r : Res (Nat × Nat) => match r with | .ok (q, _) => q | .error _ => 0) ∘ fun q => .ok (q, b)) = qs := by
        simp [Function.comp_def]
      rw [e3] at e2
      rw [← e2]
      apply List.map_congr_left
      intro x _
      simp only [Function.comp_apply, quotOf]
      cases H.map x.1 d.tb with
      | error _ => rfl
      | ok r => rfl
    have hvs : (quots H d.tb row).map Prod.snd = row.map Prod.snd := by simp [quots, List.map_map, Function.comp_def]
    have hlq : (quots H d.tb row).length = row.length := by simp [quots]
    have hl : ¬ row.length = 0 := fun e => hne (List.length_eq_zero_iff.mp e)
    have hs0 : (s0.bkt b).size = row.length := hsz 0 (by simp)
    obtain ⟨kb', k3, k4⟩ := hK d.qw qs kb (vb ++ bytes ++ rest) hq1 (by
      intro x hx
      rw [← hqs] at hx
      obtain ⟨y, hy, rfl⟩ := List.mem_map.mp hx
      obtain ⟨e, he, rfl⟩ := List.mem_map.mp hy
      exact (hn row (by simp) e he).1) (hq ▸ hkb)
    obtain ⟨vb', v3, v4⟩ := hV d.vw (row.map Prod.snd) vb (bytes ++ rest) hv1 (by
      intro x hx
      obtain ⟨e, he, rfl⟩ := List.mem_map.mp hx
      exact (hn row (by simp) e he).2) hvb
    have hlqs : qs.length = row.length := by rw [← hqs, List.length_map, hlq]
    rw [hlqs] at k3 k4
    rw [List.length_map] at v3 v4
    have hg : s0.get b = .ok (s0.bkt b) := by unfold SepStore.get; rw [if_pos (by omega)]
    obtain ⟨s1, f1, f2, f3, f4⟩ := ih (fun row hr => hn row (by simp [hr])) (s0.set b { s0.bkt b with keys := kb', vals := vb' }) rest
      (show b + 1 + rows.length ≤ s0.n by omega) (fun i hi => by
        have := hsz (i + 1) (by simpa using hi)
        show (upd s0.bkt b _ (b + 1 + i)).size = _
        rw [upd_other _ _ (by omega), show b + 1 + i = b + (i + 1) by omega]
        simpa using this)
    refine ⟨s1, ?_, f2, ?_, ?_⟩
    · have a1 : kb ++ vb ++ bytes ++ rest = kb ++ (vb ++ bytes ++ rest) := by simp [List.append_assoc]
      have a2 : vb ++ bytes ++ rest = vb ++ (bytes ++ rest) := by simp [List.append_assoc]
      rw [List.length_cons, List.range'_succ]
      simp only [SepCfg.deserBuckets, hg, ok_bind, hs0, if_neg hl, a1, k3]
      rw [a2, v3]
      simp only [ok_bind]
      rw [← f1]
      simp only [hs0]
    · intro i hi
      cases i with
      | zero =>
        have e : s1.bkt (b + 0) = { s0.bkt b with keys := kb', vals := vb' } := by
          rw [f4 (b + 0) (by omega)]
          exact upd_same _ _ _
        rw [e]
        refine ⟨rfl, rfl, fun _ => ?_, fun h => absurd h hne⟩
        simp only [List.getElem_cons_zero]
        rw [hqs, hvs]
        exact ⟨k4, v4⟩
      | succ i =>
        have := f3 i (by simpa using hi)
        have e : (s0.set b { s0.bkt b with keys := kb', vals := vb' }).bkt (b + 1 + i) = s0.bkt (b + 1 + i) := upd_other _ _ (by omega)
        rw [e, show b + 1 + i = b + (i + 1) by omega] at this
        simpa using this
    · intro x hx
      rw [List.length_cons] at hx
      rw [f4 x (by omega)]
      exact upd_other _ _ (by omega)

/-- Reading a file of the right format gives a table with the pairs of the file, in this order. -/
theorem read_file {P : Par (SepStore KB VB) Unit} (hP : SepParOK p hk tr W kw vw false P) {knorm : Nat → Nat → Nat}
    {KRep : KB → Nat → Nat → List Nat → Prop} {VRep : VB → Nat → Nat → List Nat → Prop} (hrep : P.Rep = SepRep p KRep VRep false)
    (hkn : ∀ w x, w ≤ W → x < 2 ^ w → knorm w x = x) (hK : DeserOK p.kops knorm KRep fk) (hV : DeserOK p.vops tr VRep fv)
    {tb : Nat} {rows : List (List (Nat × Nat))} {bytes : List Nat} (hf : SepFile (hk.mapping kw) fk fv kw vw tb rows bytes)
    (htb : tb = 0 ∨ (hk.lo kw W ≤ tb ∧ tb ≤ hk.width kw - 1)) (hmax : ∀ row ∈ rows, row.length ≤ p.maxBucket)
    (hkeys : ∀ e ∈ rows.flatten, e.1 < 2 ^ kw ∧ tr vw e.2 = e.2) (hnd : (rows.flatten.map Prod.fst).Nodup)
    (hsz : rows.flatten.length < 2 ^ 64) (t0 : Tab (SepStore KB VB) Unit) (rest : List Nat) :
    ∃ t', p.deserialize hk t0 (bytes ++ rest) = .ok (t', rest) ∧ Inv (sepMap p hk) P t' rows.flatten ∧ t'.tb = tb ∧
      t'.pairs (sepMap p hk) = .ok rows.flatten := by
  have L := hP.laws
  have hkw := L.kw_le
  have hvw := L.vw_le
  have ekw : P.kw = kw := by obtain ⟨_, _, rfl⟩ := hP.par; rfl
  have evw : P.vw = vw := by obtain ⟨_, _, rfl⟩ := hP.par; rfl
  have eW : P.W = W := by obtain ⟨_, _, rfl⟩ := hP.par; rfl
  have etr : P.norm P.vw = tr vw := by obtain ⟨_, _, rfl⟩ := hP.par; rfl
  have elo : P.lo = hk.lo kw W := by obtain ⟨_, _, rfl⟩ := hP.par; rfl
  have ehi : P.hi = hk.width kw - 1 := by obtain ⟨_, _, rfl⟩ := hP.par; rfl
  obtain ⟨hlen, h255, body, hbytes, hB⟩ := hf
  obtain ⟨full0, h0⟩ := L.ovf.new 0 0
  rcases htb with rfl | ⟨hlo, hhi⟩
  · rw [if_pos rfl] at hlen
    have hr0 : rows = [] := List.length_eq_zero_iff.mp hlen
    subst hr0
    cases hB
    have hr : Tab.reserve (sepMap p hk) { t0.clear (sepMap p hk) with kw := kw, vw := vw, bpg := 1 } (2 ^ 0) =
        .ok { t0.clear (sepMap p hk) with kw := kw, vw := vw, bpg := 1, store := { n := 2 ^ 0, bkt := fun _ => { keys := p.kops.empty, vals := p.vops.empty, size := 0, cap := 0 } } } := by
      unfold Tab.reserve Tab.reserveWith Tab.reserveEmpty
      rw [reserveBits_pow (show 0 < 64 by omega)]
      rfl
    have hinv : Inv (sepMap p hk) P { t0.clear (sepMap p hk) with kw := kw, vw := vw, bpg := 1, elems := 0, store := { n := 2 ^ 0, bkt := fun _ => { keys := p.kops.empty, vals := p.vops.empty, size := 0, cap := 0 } } } [] :=
      .inl ⟨ekw.symm, evw.symm, Nat.le_refl 1, show 1 ≤ 64 by omega, rfl, rfl, rfl, rfl, 0, full0, h0⟩
    refine ⟨_, by rw [hbytes]; exact deser_eq (by omega) (by omega) (show 0 < 64 by omega) hsz hr rfl rfl, hinv, rfl, ?_⟩
    obtain ⟨l, l1, _, l2⟩ := Sem.pairs (m := FMap.empty) L hP.noOverflow ⟨[], hinv, ⟨by simp [FMap.empty], rfl⟩⟩
    have : l = [] := List.length_eq_zero_iff.mp l2.size.symm
    rw [this] at l1
    exact l1
  · have htb64 : tb < 64 := by have := L.hi_lt; omega
    have htb0 : tb ≠ 0 := by have := L.lo_pos; omega
    rw [if_neg htb0] at hlen
    obtain ⟨t1, full1, g1, g2, g3, g4⟩ := reserveEmpty_ok L
      (t := { t0.clear (sepMap p hk) with kw := kw, vw := vw, bpg := 1 }) (n := 2 ^ tb) (r := tb)
      ekw.symm evw.symm (Nat.le_refl 1) (show 1 ≤ 64 by omega) rfl h0 rfl (reserveBits_pow htb64) (by omega) (by omega)
    have hr : Tab.reserve (sepMap p hk) { t0.clear (sepMap p hk) with kw := kw, vw := vw, bpg := 1 } (2 ^ tb) = .ok t1 := by
      unfold Tab.reserve Tab.reserveWith
      rw [reserveBits_pow htb64]
      exact g1
    have hgood := g2.good L
    have hmap : LawfulMapping (hk.mapping kw) kw tb := by
      have := g2.map_ok L
      rw [g3, ekw] at this
      exact this
    have hR1 : SepRep p KRep VRep false t1.store (t1.dim (sepMap p hk)) (fun _ => []) := by
      have := g2.rep; rwa [hrep] at this
    have hbc1 : t1.bucketCount = 2 ^ tb := by rw [g2.bc L, g3]
    have hn1 : t1.store.n = 2 ^ tb := by rw [hR1.n]; show 2 ^ t1.tb = _; rw [g3]
    have hdq : (t1.dim (sepMap p hk)).qw = (hk.mapping kw).remainderWidth tb := by
      unfold Tab.dim; rw [g2.hash, g3, ekw]; rfl
    have hdt : (t1.dim (sepMap p hk)).tb = tb := g3
    have hdv : (t1.dim (sepMap p hk)).vw = vw := g2.tvw.trans evw
    -- what is known about an entry of the file
    have hent : ∀ b (hb : b < rows.length), ∀ e ∈ rows[b], e ∈ rows.flatten ∧ e.1 < 2 ^ kw ∧ tr vw e.2 = e.2 ∧
        (hk.mapping kw).map e.1 tb = .ok (quotOf (hk.mapping kw) tb e.1, b) ∧
        invKey (hk.mapping kw) tb b (quotOf (hk.mapping kw) tb e.1) = e.1 ∧
        quotOf (hk.mapping kw) tb e.1 < 2 ^ (hk.mapping kw).remainderWidth tb := by
      intro b hb e he
      have hm : e ∈ rows.flatten := List.mem_flatten.mpr ⟨_, List.getElem_mem hb, he⟩
      obtain ⟨q, hq⟩ := hB.bucket b hb e he
      rw [Nat.zero_add] at hq
      have hq' : quotOf (hk.mapping kw) tb e.1 = q := by unfold quotOf; rw [hq]
      obtain ⟨i1, i2, i3, i4⟩ := invKey_of_map hmap (hkeys e hm).1 hq
      rw [hq']
      exact ⟨hm, (hkeys e hm).1, (hkeys e hm).2, hq, i1, i3⟩
    have hlens : (rows.map List.length).length = t1.bucketCount := by rw [List.length_map, hlen, hbc1]
    have hsz' : ∀ b (hb : b < rows.length), ((rows.map List.length)[b]?).getD (t1.store.bkt b).size = rows[b].length := by
      intro b hb
      simp [hb]
    obtain ⟨s1, f1, f2, f3, f4⟩ := deserBuckets_file hK hV (d := t1.dim (sepMap p hk)) (H := hk.mapping kw) (rows := rows)
      (bytes := body) (b := 0) (by rw [hdq, hdt]) hgood.qw_pos hgood.vw_pos (by rw [hdt, hdv]; exact hB) (by
        intro row hrow e he
        obtain ⟨b, hb, rfl⟩ := List.mem_iff_getElem.mp hrow
        obtain ⟨_, _, h3, _, _, h6⟩ := hent b hb e he
        rw [hdt, hdv, hdq]
        refine ⟨hkn _ _ ?_ h6, h3⟩
        have := hgood.qw_le_W
        rw [← hdq, ← eW]; exact this)
      { t1.store with bkt := fun b => { t1.store.bkt b with
        size := (((rows.map List.length))[b]?).getD (t1.store.bkt b).size } } rest (by
          show 0 + rows.length ≤ t1.store.n
          rw [hlen, hn1]; omega) (by
        intro i hi
        rw [Nat.zero_add]
        exact hsz' i hi)
    have hc : ∀ b (hb : b < rows.length), rows[b]?.getD [] = rows[b] := by intro b hb; simp [hb]
    have hbE : ∀ b (hb : b < rows.length), bEnts (hk.mapping kw) tb b (quots (hk.mapping kw) tb rows[b]) = rows[b] := by
      intro b hb
      unfold bEnts quots
      rw [List.map_map]
      have : rows[b].map ((fun e => (invKey (hk.mapping kw) tb b e.1, e.2)) ∘ fun e => (quotOf (hk.mapping kw) tb e.1, e.2)) =
          rows[b].map id := by
        apply List.map_congr_left
        intro e he
        simp only [Function.comp_apply, (hent b hb e he).2.2.2.2.1, id]
      rw [this, List.map_id]
    have hst : stored (hk.mapping kw) tb (fun b => quots (hk.mapping kw) tb (rows[b]?.getD [])) = rows.flatten := by
      unfold stored
      have e1 : (List.range (2 ^ tb)).map (fun b => bEnts (hk.mapping kw) tb b (quots (hk.mapping kw) tb (rows[b]?.getD []))) = rows := by
        apply List.ext_getElem
        · simp [hlen]
        · intro i h1 h2
          rw [List.getElem_map, List.getElem_range, hc i h2, hbE i h2]
      rw [List.flatMap_def, e1]
    have hlive : Live (sepMap p hk) P { t1 with elems := rows.flatten.length, store := s1 }
        (fun b => quots (hk.mapping kw) tb (rows[b]?.getD [])) [] full1 := by
      refine { tkw := g2.tkw, tvw := g2.tvw, bpg_pos := g2.bpg_pos, bpg_le := g2.bpg_le, lo := g2.lo, hi := g2.hi,
               rep := ?_, orep := g2.orep, cok := ?_, ofull := by simp, vals := ?_, ovals := by simp,
               elems := ?_ }
      · rw [hrep]
        refine ⟨?_, ?_⟩
        · show s1.n = 2 ^ t1.tb
          rw [f2, g3]; exact hn1
        · intro b hb
          have hb' : b < rows.length := by rw [hlen, ← g3]; exact hb
          have hq0 : (quots (hk.mapping kw) tb rows[b] = []) ↔ rows[b] = [] := by simp [quots]
          have hB1 := hR1.bkt b hb
          obtain ⟨k1, k2, k3, k4⟩ := f3 b hb'
          rw [Nat.zero_add] at k1 k2 k3 k4
          have hcap : (s1.bkt b).cap = 0 := by rw [k2]; exact hB1.cap0 rfl
          show SepBRep p KRep VRep false (t1.dim (sepMap p hk)).qw (t1.dim (sepMap p hk)).vw (s1.bkt b) (quots (hk.mapping kw) tb (rows[b]?.getD []))
          rw [hc b hb']
          have hlq : (quots (hk.mapping kw) tb rows[b]).length = rows[b].length := by simp [quots]
          refine ⟨by rw [k1, hlq]; exact hsz' b hb', ?_, ?_, fun _ => hcap, ?_, by simp⟩
          · rw [hlq]
            have h1 := hmax _ (List.getElem_mem hb')
            have h2 := h255 _ (List.getElem_mem hb')
            unfold SepCfg.maxSize
            omega
          · intro hne
            have hne' : rows[b] ≠ [] := fun e => hne (hq0.mpr e)
            refine ⟨rows[b].length, ?_, ?_, fun _ => by rw [hcap]; omega, by have := h255 _ (List.getElem_mem hb'); omega⟩
            · have := (k3 hne').1
              rw [hdt] at this; exact this
            · have := (k3 hne').2
              rw [hdt] at this; exact this
          · intro h
            have := hB1.nil rfl
            rw [k4 (hq0.mp h)]
            exact this
      · show COK ((sepMap p hk).hash P.kw) P.kw t1.tb _ []
        rw [g3, ekw]
        refine ⟨?_, ?_, by simp, by simp⟩
        · intro b hb e he
          have hb' : b < rows.length := by rw [hlen]; exact hb
          rw [hc b hb'] at he
          obtain ⟨x, hx, rfl⟩ := List.mem_map.mp he
          obtain ⟨_, h2, _, h4, _⟩ := hent b hb' x hx
          exact ⟨x.1, h2, h4⟩
        · intro b hb
          have hb' : b < rows.length := by rw [hlen]; exact hb
          simp only [hc b hb']
          have hrow : (rows[b].map Prod.fst).Nodup := by
            refine List.Nodup.sublist (List.Sublist.map _ ?_) hnd
            exact List.sublist_flatten_of_mem (List.getElem_mem hb')
          unfold quots
          rw [List.map_map]
          rw [List.Nodup, List.pairwise_map] at hrow ⊢
          refine List.Pairwise.imp_of_mem ?_ hrow
          intro x y hx hy hxy e
          simp only [Function.comp_apply] at e
          apply hxy
          rw [← (hent b hb' x hx).2.2.2.2.1, ← (hent b hb' y hy).2.2.2.2.1, e]
      · intro b hb e he
        have hb' : b < rows.length := by rw [hlen, ← g3]; exact hb
        rw [etr]
        simp only [hc b hb'] at he
        obtain ⟨x, hx, rfl⟩ := List.mem_map.mp he
        exact (hent b hb' x hx).2.2.1
      · show rows.flatten.length = (ents ((sepMap p hk).hash P.kw) t1.tb _ []).length
        rw [g3, ekw]
        show _ = (stored (hk.mapping kw) tb _ ++ []).length
        rw [hst, List.append_nil]
    refine ⟨_, by rw [hbytes]; exact deser_eq (by omega) (by omega) htb64 hsz hr hlens (by
      rw [hbc1, ← hlen, List.range_eq_range']; exact f1), .inr ⟨_, [], full1, hlive, ?_⟩, g3, ?_⟩
    · show rows.flatten.Perm (ents ((sepMap p hk).hash P.kw) t1.tb _ [])
      rw [g3, ekw]
      show rows.flatten.Perm (stored (hk.mapping kw) tb _ ++ [])
      rw [hst, List.append_nil]
    · obtain ⟨n, v1, v2⟩ := hlive.visit_begin L (f := rows.flatten.length + 1) (Nat.lt_succ_self _)
      have hst' : stored ((sepMap p hk).hash P.kw) t1.tb (fun b => quots (hk.mapping kw) tb (rows[b]?.getD [])) = rows.flatten := by
        rw [g3, ekw]; exact hst
      unfold Tab.pairs
      rw [v1, ok_bind]
      exact v2.trans (congrArg Except.ok hst')

end SC
