import Verif.Own.Calls
import Verif.Own.Hash
/-!
# Programs with several tables
-/
namespace SC.Own
variable {c : MCfg} {K : Keys} {V : LV} {t : MTab} {h : Heap} {R : Foot} {i lg : Nat}

/-- `erase(key)` -/
theorem erase_ok (g : c.Good K) {W : View} (hO : W.Of c K t) (hU : W.Usable t) (hI : h.Is (W.foot c + R)) {k : Nat} (hk : K.key k) :
    ∃ s, erase c h t k = .ok s ∧ After c K 0 R (W.Clean t) s := by
  unfold erase
  by_cases h0 : t.lg = 0
  · exact ⟨(t, h), by rw [if_pos h0], W, 0, hO, hU, hI.cast (by simp), fun e => ⟨e, rfl⟩, Nat.zero_le _⟩
  · rw [if_neg h0]
    cases W with
    | idle v => exact absurd hU h0
    | live V =>
      obtain ⟨p, w⟩ := hO
      have hi := g.hash_lt t.lg k w.le hk
      generalize c.hash t.lg k = b at hi
      obtain ⟨n, hn⟩ := w.size hi
      obtain ⟨r, _, r1, _, r2, _⟩ := find_ok hI p w hn k
      simp only [size_ok hI p hn, ok_bind, r1]
      cases r with
      | none => exact ⟨(t, h), rfl, .live V, 0, ⟨p, w⟩, trivial, hI.cast (by simp), fun e => ⟨e, rfl⟩, Nat.zero_le _⟩
      | some j =>
        have hj := r2 j rfl
        obtain ⟨hmax, ⟨bk, h1, h2⟩, h3⟩ := w.slot b n hn
        have hmax2 := g.max
        have e1 : (n + 255) % 256 = n - 1 := by omega
        simp only [e1]
        have hlen := h2.len
        obtain ⟨ha, y, a1, a2, a3⟩ := keysStep (V := V) (b := Has ((bkKeys bk).eraseIdx j)) (erase_step h1 (h2.has (by omega)) (by rw [hlen]; exact hj)) hI
        have hy : n - 1 ≠ 0 → Slot (n - 1) y := fun hne => by
          have e : ((bkKeys bk).eraseIdx j).length = n - 1 := by rw [List.length_eraseIdx, if_pos (by rw [hlen]; exact hj), hlen]
          have := a3.slot (by omega)
          rwa [e] at this
        obtain ⟨hb, y', b1, b2, b3⟩ := valsStep (V := { V with ks := V.ks.set b y }) (b := HasN (n - 1)) (i := b)
          (f := fun h => h.eraseBucket t.vals b j)
          (fun hv h R hI => by
            obtain ⟨b', d1, d2⟩ := h3 hv
            have hl := d2.len
            rw [p.vals, if_pos hv]
            exact hasN_step (F := fun y => arrFoot V.vp c.vmem.how (V.vs.set b y) + R)
              (erase_step d1 (d2.has (by omega)) (by rw [hl]; exact hj) h R hI)
              (fun y e => ⟨_, e, by rw [List.length_eraseIdx, if_pos (by rw [hl]; exact hj), hl]⟩)) a2
        obtain ⟨hc, c1, c2⟩ := sizeStep (V := { V with ks := V.ks.set b y, vs := V.vs.set b y' }) (i := b) b2 (lt_of_get hn) (n - 1)
        simp only at c1
        rw [← p.keys] at a1
        rw [← p.sizes] at c1
        rw [a1, ok_bind, b1, ok_bind, c1, ok_bind]
        by_cases hn1 : n - 1 = 0
        · rw [if_pos hn1]
          -- the bucket is empty now, but still has memory
          have hd : ∃ h', clearOne c hc t b = .ok h' ∧ Live c K t t.lg h' R := by
            have p' : (V.upd b y y' (n - 1) V.cs).Ptrs c t := p.upd
            have c2' : hc.Is ((V.upd b y y' (n - 1) V.cs).foot c + R) := c2
            obtain ⟨h1', z', q1, q2, q3⟩ := valsStep (V := V.upd b y y' (n - 1) V.cs) (b := fun y => y = none) (i := b)
              (f := fun h => h.clearBucket c.vmem.how t.vals b)
              (fun hv h R hI => by
                obtain ⟨b', d1, d2⟩ := h3 hv
                rw [p.vals, if_pos hv]
                exact clear_step (l := V.vs.set b y') (List.getElem?_set_self (lt_of_get d1)) h R hI) c2'
            obtain ⟨h2', z, s1, s2, s3⟩ := keysStep (i := b) (V := { V.upd b y y' (n - 1) V.cs with vs := (V.vs.set b y').set b z' }) (b := fun y => y = none)
              (clear_step (l := V.ks.set b y) (List.getElem?_set_self (lt_of_get h1))) q2
            obtain ⟨h3', u1, u2⟩ := sizeStep (V := { V.upd b y y' (n - 1) V.cs with vs := (V.vs.set b y').set b z', ks := (V.ks.set b y).set b z }) (i := b) s2
              (by simpa [LV.upd] using lt_of_get hn) 0
            obtain ⟨h4', cs, v1, v2, v3⟩ := capsStep (V := { V.upd b y y' (n - 1) V.cs with vs := (V.vs.set b y').set b z', ks := (V.ks.set b y).set b z, ss := (V.ss.set b (n - 1)).set b 0 })
              (t := t) (i := b) u2 ⟨p.keys, p.vals, p.sizes, p.caps⟩ (fun e => Nat.lt_of_lt_of_eq hi (w.cs e).symm) 0
            subst s3
            refine ⟨h4', ?_, V.upd b none z' 0 cs, p.upd, w.upd rfl (fun hv => by rw [q3 hv]; rfl) (Nat.zero_le _) v3 Holds.nil, v2.cast ?_⟩
            · simp only [LV.upd] at s1 u1
              rw [clearOne, q1, ok_bind, p.keys, s1, ok_bind, p.sizes, u1, ok_bind, v1]
            · simp only [LV.upd, List.set_set]
          obtain ⟨h', d1, V', d2, d3, d4⟩ := hd
          rw [d1, ok_bind]
          exact ⟨_, rfl, .live V', 0, ⟨⟨d2.keys, d2.vals, d2.sizes, d2.caps⟩, d3⟩, trivial, d4.cast (by simp [View.foot]), fun e => ⟨e, rfl⟩, Nat.zero_le _⟩
        · rw [if_neg hn1, ok_bind]
          refine ⟨_, rfl, .live (V.upd b y y' (n - 1) V.cs), 0, ⟨⟨p.keys, p.vals, p.sizes, p.caps⟩, ?_⟩, trivial, c2.cast (by simp [View.foot, LV.upd]),
            fun e => ⟨e, rfl⟩, Nat.zero_le _⟩
          refine w.upd (hy hn1) (fun hv => (b3 hv).slot hn1) (by omega) rfl ?_
          rw [a3.keys]
          exact (w.holds b bk h1).eraseIdx j

/-- `shrink_to_fit(bucket)` -/
theorem shrinkOne_ok (hL : Live c K t lg h R) (hi : i < 2 ^ lg) : ∃ h', shrinkOne c t h i = .ok h' ∧ Live c K t lg h' R := by
  obtain ⟨V, p, w, hI⟩ := hL
  obtain ⟨n, hn⟩ := w.size hi
  obtain ⟨hmax, ⟨bk, h1, h2⟩, h3⟩ := w.slot i n hn
  have hcs : c.strat = .arbitrary → i < V.cs.length := fun e => by rw [w.cs e]; exact hi
  simp only [shrinkOne, size_ok hI p hn, ok_bind]
  by_cases h0 : n = 0
  · rw [if_pos h0]; exact ⟨h, rfl, V, p, w, hI⟩
  · rw [if_neg h0]
    obtain ⟨_, r, r1⟩ := capRead hI p hcs n
    rw [r1, ok_bind]
    cases r with
    | false => exact ⟨h, rfl, V, p, w, hI⟩
    | true =>
      simp only [if_true]
      obtain ⟨ha, y, a1, a2, a3⟩ := keysStep (V := V) (b := Has (bkKeys bk)) (resize_step h1 (h2.has h0)) hI
      obtain ⟨hb, y', b1, b2, b3⟩ := valsStep (V := { V with ks := V.ks.set i y }) (b := HasN n) (i := i)
        (f := fun h => h.resizeBucket c.vmem.how t.vals i)
        (fun hv h R hI => by
          obtain ⟨b', d1, d2⟩ := h3 hv
          rw [p.vals, if_pos hv]
          exact hasN_step (F := fun y => arrFoot V.vp c.vmem.how (V.vs.set i y) + R) (resize_step d1 (d2.has h0) h R hI) (fun y e => ⟨_, e, d2.len⟩)) a2
      obtain ⟨hc, cs, c1, c2, c3⟩ := capsStep (V := { V with ks := V.ks.set i y, vs := V.vs.set i y' }) (t := t) b2
        ⟨p.keys, p.vals, p.sizes, p.caps⟩ hcs n
      have e : V.ss.set i n = V.ss := set_get hn
      have hy : Slot n y := by
        have := a3.slot (by rw [h2.len]; exact h0)
        rwa [h2.len] at this
      refine ⟨hc, ?_, V.upd i y y' n cs, p.upd, w.upd hy (fun hv => (b3 hv).slot h0) hmax c3 ?_, c2.cast ?_⟩
      · rw [p.keys, a1, ok_bind, b1, ok_bind, c1]
      · rw [a3.keys]; exact w.holds i bk h1
      · simp only [LV.upd, e]

/-- `shrink_to_fit()` -/
theorem shrink_ok {W : View} (hO : W.Of c K t) (hU : W.Usable t) (hI : h.Is (W.foot c + R)) : ∃ s, shrink c h t = .ok s ∧ After c K 0 R (W.Clean t) s := by
  unfold shrink
  by_cases h0 : t.lg = 0
  · exact ⟨(t, h), by rw [if_pos h0], W, 0, hO, hU, hI.cast (by simp), fun e => ⟨e, rfl⟩, Nat.zero_le _⟩
  · rw [if_neg h0]
    cases W with
    | idle v => exact absurd hU h0
    | live V =>
      obtain ⟨h1, a1, V1, a2, a3, a4⟩ := foldlM_ok (fun h => Live c K t t.lg h R) (f := shrinkOne c t) (List.range t.bucketCount) h
        (fun h b hb hL => shrinkOne_ok hL (bucketCount_lt hb)) ⟨V, hO.1, hO.2, hI⟩
      rw [a1, ok_bind]
      exact ⟨_, rfl, .live V1, 0, ⟨a2, a3⟩, trivial, a4.cast (by simp [View.foot]), fun e => ⟨e, rfl⟩, Nat.zero_le _⟩

/-- the buckets in a stream that `serialize` has written -/
structure Image (c : MCfg) (K : Keys) (bits : Nat) (bs : List (List (Nat × Nat))) : Prop where
  len : bits ≠ 0 → bs.length = 2 ^ bits
  max : ∀ b ∈ bs, b.length ≤ c.maxSize
  le : K.sure → bits ≤ K.top
  holds : ∀ (i : Nat) (b : List (Nat × Nat)), bs[i]? = some b → Holds K (c.hash bits) i (b.map Prod.fst)

/-- the library's hash functions -/
theorem MCfg.Good.hash (hk : HashKind) (h3 : 3 ≤ c.kw) (h64 : c.kw ≤ 64) (h2 : 2 ≤ c.maxSize) (hmax : c.maxSize ≤ 255) (hh : c.hash = hk.place c.kw) :
    c.Good (hk.keys c.kw) where
  limit := keys_limit hk h3 h64
  hash_lt lg k hlg hk' := by rw [hh]; exact place_lt hk h3 h64 hlg hk'
  max := hmax
  first _ := ⟨h3, by
    have h1 := (keys_top hk h3 h64).1
    have := Nat.lt_two_pow_self (n := (hk.keys c.kw).top)
    omega⟩
  spread _ := by rw [hh]; exact (place_spread hk h3 h64).mono h2

theorem image_any {bits : Nat} {bs : List (List (Nat × Nat))} :
    Image c .any bits bs ↔ (bits ≠ 0 → bs.length = 2 ^ bits) ∧ ∀ b ∈ bs, b.length ≤ c.maxSize :=
  ⟨fun h => ⟨h.len, h.max⟩, fun h => ⟨h.1, h.2, False.elim, fun _ _ _ => ⟨fun _ _ => trivial, False.elim, False.elim⟩⟩⟩

/-- the bucket classes release what `deserialize` allocates -/
def MCfg.Loads (c : MCfg) : Prop := c.kmem.load = c.kmem.how ∧ (c.hasVals = true → c.vmem.load = c.vmem.how)

theorem load_step {arr : Nat} {how : Alloc} {l : List Bk} (hb : l[i]? = some none) (xs : List Nat) (h : Heap) (R : Foot) (hI : h.Is (arrFoot arr how l + R)) :
    ∃ h' y, h.loadBucket how (some arr) i xs = .ok h' ∧ h'.Is (arrFoot arr how (l.set i y) + R) ∧ Has xs y := by
  obtain ⟨h', h1, a, h2⟩ := hI.newBucket hb xs
  exact ⟨h', _, h1, h2, a, rfl⟩

/-- in `deserialize`: the first `m` buckets are read -/
def Loading (c : MCfg) (t : MTab) (bs : List (List (Nat × Nat))) (R : Foot) (m : Nat) (h : Heap) : Prop :=
  ∃ V : LV, V.Ptrs c t ∧ h.Is (V.foot c + R) ∧ V.ks.length = 2 ^ t.lg ∧ (c.hasVals = true → V.vs.length = 2 ^ t.lg) ∧ V.ss = bs.map List.length ∧
    (c.strat = .arbitrary → V.cs.length = 2 ^ t.lg) ∧
    (∀ j n, j < m → V.ss[j]? = some n → (∃ b, V.ks[j]? = some b ∧ Slot n b ∧ bkKeys b = (bs.getD j []).map Prod.fst) ∧
      (c.hasVals = true → ∃ b, V.vs[j]? = some b ∧ Slot n b)) ∧
    (∀ j, m ≤ j → j < 2 ^ t.lg → V.ks[j]? = some none ∧ (c.hasVals = true → V.vs[j]? = some none))

theorem load_loop (hl : c.Loads) {bs : List (List (Nat × Nat))} (hlen : bs.length = 2 ^ t.lg) (hL : Loading c t bs R 0 h) : ∀ m, m ≤ 2 ^ t.lg →
    ∃ h', (List.range m).foldlM (loadOne c t bs) h = .ok h' ∧ Loading c t bs R m h' := by
  intro m
  induction m with
  | zero => intro _; exact ⟨h, rfl, hL⟩
  | succ m ih =>
    intro hm
    obtain ⟨h1, a1, V, p, hI, l1, l2, l3, l4, s1, s2⟩ := ih (by omega)
    rw [List.range_succ, List.foldlM_append, a1, ok_bind]
    simp only [List.foldlM_cons, List.foldlM_nil]
    have hmb : m < bs.length := by omega
    have hn : V.ss[m]? = some bs[m].length := by rw [l3, List.getElem?_map, List.getElem?_eq_getElem hmb]; rfl
    simp only [loadOne, size_ok hI p hn, ok_bind]
    obtain ⟨k1, k2⟩ := s2 m (Nat.le_refl _) (by omega)
    by_cases h0 : bs[m].length = 0
    · rw [if_pos h0]
      refine ⟨h1, rfl, V, p, hI, l1, l2, l3, l4, fun j n hj hjn => ?_, fun j hj => s2 j (by omega)⟩
      by_cases e : j = m
      · subst e
        rw [hn, h0] at hjn
        cases hjn
        refine ⟨⟨none, k1, rfl, ?_⟩, fun hv => ⟨none, k2 hv, rfl⟩⟩
        rw [List.getD_eq_getElem?_getD, List.getElem?_eq_getElem hmb, Option.getD_some, List.eq_nil_of_length_eq_zero h0]
        rfl
      · exact s1 j n (by omega) hjn
    · rw [if_neg h0, p.keys]
      have eg : bs.getD m [] = bs[m] := by rw [List.getD_eq_getElem?_getD, List.getElem?_eq_getElem hmb]; rfl
      rw [eg]
      obtain ⟨ha, y, b1, b2, b3⟩ := keysStep (V := V) (b := Has (bs[m].map Prod.fst)) (load_step k1 (bs[m].map Prod.fst)) hI
      obtain ⟨hb, y', c1, c2, c3⟩ := valsStep (V := { V with ks := V.ks.set m y }) (b := Has (bs[m].map Prod.snd)) (i := m)
        (f := fun h => h.loadBucket c.vmem.load t.vals m (bs[m].map Prod.snd))
        (fun hv h R hI => by
          rw [p.vals, if_pos hv, hl.2 hv]
          exact load_step (k2 hv) _ h R hI) b2
      have b4 := b3.slot (by rw [List.length_map]; exact h0)
      have c4 := fun hv => (c3 hv).slot (by rw [List.length_map]; exact h0)
      simp only [List.length_map] at b4 c4
      rw [hl.1, b1, ok_bind, c1]
      refine ⟨hb, rfl, { V with ks := V.ks.set m y, vs := V.vs.set m y' }, ⟨p.keys, p.vals, p.sizes, p.caps⟩, c2, by simp [l1], fun hv => by simp [l2 hv],
        l3, l4, fun j n hj hjn => ?_, fun j hj hj2 => ?_⟩
      · simp only at hjn ⊢
        by_cases e : j = m
        · subst e
          rw [hn] at hjn
          cases hjn
          exact ⟨⟨y, List.getElem?_set_self (by omega), b4, by rw [b3.keys, eg]⟩, fun hv => ⟨y', List.getElem?_set_self (by rw [l2 hv]; omega), c4 hv⟩⟩
        · rw [List.getElem?_set_ne (by omega), List.getElem?_set_ne (by omega)]
          exact s1 j n (by omega) hjn
      · simp only
        rw [List.getElem?_set_ne (by omega), List.getElem?_set_ne (by omega)]
        exact s2 j (by omega) hj2

/-- `deserialize` -/
theorem load_ok (g : K.Limit) (hl : c.Loads) {W : View} (hO : W.Of c K t) (hU : W.Usable t) (hI : h.Is (W.foot c + R)) {bits : Nat} {bs : List (List (Nat × Nat))}
    (hb : Image c K bits bs) :
    Safe K.sure (load c h t bits bs) (After c K 0 R (W.Clean t ∧ (c.hasVals = false ∨ W = .idle none) ∧ bits ≠ 0)) := by
  unfold load
  obtain ⟨t1, h1, v, a1, a2, a3, a4, a5, a6⟩ := clear_ok hO hI
  rw [a1, ok_bind]
  by_cases hb64 : bits < 64
  case neg =>
    have e : shl64 1 bits = .error .shift := by rw [shl64, if_neg hb64]
    rw [e]
    exact ⟨fun hs => by have := hb.le hs; have := g.top; omega, .inr rfl⟩
  have hbits : bits ≤ K.top := by
    by_cases hs : K.sure
    · exact hb.le hs
    · rw [g.unsure hs]; omega
  have e2 : shl64 1 bits = .ok (2 ^ bits) := by
    rw [shl64, if_pos hb64, Nat.one_shiftLeft, W64, Nat.mod_eq_of_lt (Nat.pow_lt_pow_right (by omega) hb64)]
  simp only [e2, ok_bind]
  have e0 := a4 hU
  have e1 : reserveWith c (fun _ _ _ _ => .error .fuel) h1 t1 (2 ^ bits) = .ok (reserveEmpty c h1 t1 bits) := by
    simp only [reserveWith, reserveBits_pow hb64, ok_bind, e0, if_true, pure_eq_ok]
  simp only [e1, ok_bind]
  obtain ⟨V, p, w, i1, e, hz⟩ := reserveEmpty_ok a3 a2.novals a2.nocaps hbits
  generalize reserveEmpty c h1 t1 bits = r at p i1 e
  obtain ⟨t2, h2⟩ := r
  simp only at p i1 e ⊢
  have hclean : W.Clean t ∧ (c.hasVals = false ∨ W = .idle none) ∧ bits ≠ 0 → (View.idle v).foot c = 0 := by
    rintro ⟨d1, d2, d3⟩
    have : v = none := by
      rcases d2 with d2 | d2
      · exact a5 d1 d2
      · exact a6 none d2
    rw [this]; rfl
  by_cases h0 : t2.lg = 0
  · rw [if_pos h0]
    refine ⟨.live V, (View.idle v).foot c, ⟨⟨p.keys, p.vals, p.sizes, p.caps⟩, by simp only [e]; exact w⟩, trivial, i1, fun hc => ?_, Nat.zero_le _⟩
    exact absurd (e.symm.trans h0) hc.2.2
  · rw [if_neg h0]
    have i2 : h2.Is (pt V.sp .malloc (.data V.ss) + (arrFoot V.kp c.kmem.how V.ks + valFoot c V.vp V.vs + capFoot c V.cp V.cs +
        ((View.idle v).foot c + R))) := i1.cast (by rw [LV.foot_eq]; ac_rfl)
    obtain ⟨h3, b1, b2⟩ := i2.put (.data (bs.map List.length))
    have hlen : bs.length = 2 ^ bits := hb.len (by omega)
    have bc : t2.bucketCount = 2 ^ bits := by rw [MTab.bucketCount, if_neg h0, e]
    generalize ht3 : ({ t2 with elems := (bs.map List.length).sum } : MTab) = t3
    have e3 : t3.lg = bits := by rw [← ht3]; exact e
    have p3 : V.Ptrs c t3 := by rw [← ht3]; exact ⟨p.keys, p.vals, p.sizes, p.caps⟩
    have bc3 : t3.bucketCount = 2 ^ bits := by rw [← ht3]; exact bc
    have L0 : Loading c t3 bs ((View.idle v).foot c + R) 0 h3 := by
      refine ⟨{ V with ss := bs.map List.length }, ⟨p3.keys, p3.vals, p3.sizes, p3.caps⟩, b2.cast (by simp only [LV.foot_eq]; ac_rfl), by rw [e3]; exact w.ks,
        fun hv => by rw [e3]; exact w.vs hv, rfl, fun ha => by rw [e3]; exact w.cs ha, fun j n hj => by omega, fun j _ hj => ?_⟩
      rw [e3] at hj
      exact ⟨(hz j hj).1, fun _ => (hz j hj).2⟩
    obtain ⟨h4, d1, V4, d2, d3, d4, d5, d6, d7, d8, _⟩ := load_loop hl (by rw [e3]; exact hlen) L0 (2 ^ t3.lg) (Nat.le_refl _)
    rw [show t2.sizes = some V.sp from p.sizes, b1, ok_bind]
    rw [e3] at d1
    have d1' : List.foldlM (loadOne c t3 bs) h3 (List.range (2 ^ bits)) = .ok h4 := d1
    rw [bc3, d1', ok_bind]
    refine ⟨.live V4, (View.idle v).foot c, ⟨d2, d4, d5, by rw [d6, List.length_map, e3]; exact hlen, d7, fun j n hj => ?_, by rw [e3]; exact hbits,
      fun j bk hj => ?_⟩, trivial, d3, fun hc => ⟨by rw [View.Clean, e3]; exact hc.2.2, hclean hc⟩, Nat.zero_le _⟩
    case refine_2 =>
      have hjl : j < bs.length := by
        have := lt_of_get hj
        rw [d4, e3] at this
        omega
      have hjs : V4.ss[j]? = some bs[j].length := by rw [d6, List.getElem?_map, List.getElem?_eq_getElem hjl]; rfl
      obtain ⟨⟨b, q1, _, q2⟩, _⟩ := d8 j _ (by rw [e3]; omega) hjs
      cases hj.symm.trans q1
      rw [q2, List.getD_eq_getElem?_getD, List.getElem?_eq_getElem hjl, Option.getD_some, e3]
      exact hb.holds j _ (List.getElem?_eq_getElem hjl)
    have hj' := hj
    rw [d6, List.getElem?_map] at hj'
    obtain ⟨b, q1, q2⟩ := Option.map_eq_some_iff.mp hj'
    have hjb := lt_of_get q1
    obtain ⟨⟨b', q3, q5, _⟩, q4⟩ := d8 j n (by rw [e3]; omega) hj
    exact ⟨by rw [← q2]; exact hb.max b (List.mem_of_getElem? q1), ⟨b', q3, q5⟩, q4⟩

/-! ## Programs -/

/-- A call on a table.  The other functions of the interface do not allocate or release anything. -/
inductive MCall
  | insert (k v : Nat)
  | erase (k : Nat)
  | reserve (n : Nat)
  | shrink
  | clear
  | load (bits : Nat) (bs : List (List (Nat × Nat)))

/-- the call with recursion bound `f` -/
def MCall.run (c : MCfg) (f : Nat) (h : Heap) (t : MTab) : MCall → Res (MTab × Heap)
  | .insert k v => Own.insert c f h t k v
  | .erase k => Own.erase c h t k
  | .reserve n => reserveWith c (Own.insert c f) h t n
  | .shrink => Own.shrink c h t
  | .clear => Own.clear c h t
  | .load bits bs => Own.load c h t bits bs

/-- arguments that are allowed -/
def MCall.Valid (c : MCfg) (K : Keys) : MCall → Prop
  | .insert k _ => K.key k
  | .erase k => K.key k
  | .reserve n => K.Room n
  | .load bits bs => Image c K bits bs ∧ c.Loads
  | _ => True

/-- calls that do not lose blocks: no `reserve(1)`; no `clear()` if there are values -/
def MCall.Keeps (c : MCfg) : MCall → Prop
  | .reserve n => 2 ≤ n
  | .clear => c.hasVals = false
  | .load bits _ => c.hasVals = false ∧ bits ≠ 0
  | _ => True

theorem MCall.run_ok (g : c.Good K) (f : Nat) {W : View} (hO : W.Of c K t) (hU : W.Usable t) (hI : h.Is (W.foot c + R)) (op : MCall) (hop : op.Valid c K) :
    Safe (K.Deep f 0) (op.run c f h t) (After c K 0 R (W.Clean t ∧ 3 ≤ c.kw ∧ op.Keeps c)) := by
  have weak : ∀ {P Q : Prop} {low : Nat} {s : MTab × Heap}, After c K low R P s → (Q → P) → After c K 0 R Q s :=
    fun ⟨W, L, a1, a2, a3, a4, _⟩ h2 => ⟨W, L, a1, a2, a3, fun q => a4 (h2 q), Nat.zero_le _⟩
  cases op with
  | insert k v => exact ((insert_ok g f h t k v R W hO hU hI hop).weaken (fun hd => hd.mono (Nat.zero_le _))).mono (fun s a => weak a (fun ⟨e1, e2, _⟩ => ⟨e1, e2⟩))
  | erase k =>
    obtain ⟨s, a1, a2⟩ := erase_ok g hO hU hI hop
    exact Safe.of_ok a1 (weak a2 (fun e => e.1))
  | reserve n => exact reserveWith_ok g.limit (insert_ok g f) hO hU hI hop (.inl rfl)
  | shrink =>
    obtain ⟨s, a1, a2⟩ := shrink_ok hO hU hI
    exact Safe.of_ok a1 (weak a2 (fun e => e.1))
  | clear =>
    obtain ⟨t', h', v, a1, a2, a3, a4, a5, _⟩ := clear_ok hO hI
    exact Safe.of_ok a1 ⟨.idle v, 0, a2, a4 hU, a3.cast (by simp), fun ⟨e1, _, e2⟩ => ⟨a5 e1 e2, rfl⟩, Nat.zero_le _⟩
  | load bits bs => exact ((load_ok g.limit hop.2 hO hU hI hop.1).weaken (fun hd => hd.1)).mono (fun s a => weak a (fun ⟨e1, _, e2⟩ => ⟨e1, .inl e2.1, e2.2⟩))

/-- the tables of a program and the heap -/
structure St where
  heap : Heap
  tabs : List MTab

/-- Statements of a program: a new table, a table that is read from a stream, a call on table `i`, `swap`, move construction from table `i`, move
assignment to table `i` from table `j`, the end of the life of table `i`.  Statements about tables that do not exist do nothing. -/
inductive Cmd
  | new
  | newLoad (bits : Nat) (bs : List (List (Nat × Nat)))
  | call (i : Nat) (op : MCall)
  | swap (i j : Nat)
  | moveCtor (i : Nat)
  | moveAssign (i j : Nat)
  | destroy (i : Nat)

def Cmd.run (c : MCfg) (f : Nat) (s : St) : Cmd → Res St
  | .new => .ok { s with tabs := s.tabs ++ [MTab.new] }
  | .newLoad bits bs => do
    let (t, h) ← load c s.heap MTab.new bits bs
    return { heap := h, tabs := s.tabs ++ [t] }
  | .call i op => match s.tabs[i]? with
    | none => .ok s
    | some t => do
      let (t, h) ← op.run c f s.heap t
      return { heap := h, tabs := s.tabs.set i t }
  | .swap i j => if i = j then (match s.tabs[i]? with
      | none => .ok s
      | some t => do
        let (t, h) ← Own.selfSwap c s.heap t
        return { heap := h, tabs := s.tabs.set i t })
    else match s.tabs[i]?, s.tabs[j]? with
    | some a, some b => do
      let (a, b, h) ← Own.swap c s.heap a b
      return { heap := h, tabs := (s.tabs.set i a).set j b }
    | _, _ => .ok s
  | .moveCtor i => match s.tabs[i]? with
    | none => .ok s
    | some o =>
      let (t, o) := Own.moveCtor o
      .ok { s with tabs := s.tabs.set i o ++ [t] }
  | .moveAssign i j => if i = j then (match s.tabs[i]? with
      | none => .ok s
      | some t => do
        let (t, h) ← Own.selfMove c s.heap t
        return { heap := h, tabs := s.tabs.set i t })
    else match s.tabs[i]?, s.tabs[j]? with
    | some t, some o => do
      let (t, o, h) ← Own.moveAssign c s.heap t o
      return { heap := h, tabs := (s.tabs.set i t).set j o }
    | _, _ => .ok s
  | .destroy i => match s.tabs[i]? with
    | none => .ok s
    | some t => do
      let h ← Own.destroy c s.heap t
      return { heap := h, tabs := s.tabs.eraseIdx i }

/-- a program, started with nothing -/
def runProg (c : MCfg) (f : Nat) (prog : List Cmd) : Res St := prog.foldlM (Cmd.run c f) { heap := Heap.empty, tabs := [] }

/-- at the end of a program all tables are destroyed, last one first -/
def destroyAll (c : MCfg) (h : Heap) : List MTab → Res Heap
  | [] => .ok h
  | t :: ts => do
    let h ← destroyAll c h ts
    Own.destroy c h t

/-- Which tables may be used, i.e. were not moved from; `none` for a program that uses another one. -/
def Cmd.flow (us : List Bool) : Cmd → Option (List Bool)
  | .new => some (us ++ [true])
  | .newLoad _ _ => some (us ++ [true])
  | .call i _ => if us[i]? = some false then none else some us
  | .swap i j => if i = j then some us else match us[i]?, us[j]? with
    | some a, some b => some ((us.set i b).set j a)
    | _, _ => some us
  | .moveCtor i => match us[i]? with
    | none => some us
    | some a => some (us.set i false ++ [a])
  | .moveAssign i j => if i = j then some us else match us[i]?, us[j]? with
    | some _, some b => some ((us.set i b).set j false)
    | _, _ => some us
  | .destroy i => some (us.eraseIdx i)

/-- no statement uses a table that was moved from, except to destroy it, to swap it or to assign to it -/
def NoUseAfterMove (us : List Bool) : List Cmd → Prop
  | [] => True
  | s :: prog => ∃ us', s.flow us = some us' ∧ NoUseAfterMove us' prog

/-- arguments that are allowed -/
def Cmd.Valid (c : MCfg) (K : Keys) : Cmd → Prop
  | .newLoad bits bs => Image c K bits bs ∧ c.Loads
  | .call _ op => op.Valid c K
  | .moveCtor _ => c.hasVals = false
  | _ => True

/-- statements that do not lose blocks -/
def Cmd.Keeps (c : MCfg) : Cmd → Prop
  | .newLoad bits _ => bits ≠ 0
  | .call _ op => op.Keeps c
  | .moveAssign _ _ => c.hasVals = false
  | _ => True

/-- a table, its blocks, and whether it may be used -/
structure Item where
  t : MTab
  W : View
  u : Bool

def Item.OK (c : MCfg) (K : Keys) (clean : Prop) (x : Item) : Prop := x.W.Of c K x.t ∧ (x.u = true → x.W.Usable x.t) ∧ (clean → x.W.Clean x.t)

def itemsFoot (c : MCfg) (l : List Item) : Foot := (l.map (fun x => x.W.foot c)).sum

/-- the tables own their blocks; `L` are the lost ones -/
def Inv (c : MCfg) (K : Keys) (clean : Prop) (us : List Bool) (s : St) : Prop :=
  ∃ (l : List Item) (L : Foot), l.map Item.t = s.tabs ∧ l.map Item.u = us ∧ (∀ x ∈ l, x.OK c K clean) ∧ s.heap.Is (itemsFoot c l + L) ∧ (clean → L = 0)

theorem itemsFoot_set (c : MCfg) {l : List Item} {x : Item} (hx : l[i]? = some x) :
    ∃ S, itemsFoot c l = x.W.foot c + S ∧ ∀ y, itemsFoot c (l.set i y) = y.W.foot c + S :=
  sum_set (fun x : Item => x.W.foot c) l i x hx

theorem itemsFoot_append (c : MCfg) (l : List Item) (x : Item) : itemsFoot c (l ++ [x]) = x.W.foot c + itemsFoot c l := by
  simp only [itemsFoot, List.map_append, List.map_cons, List.map_nil, List.sum_append, List.sum_cons, List.sum_nil, add_zero]
  ac_rfl

theorem itemsFoot_erase (c : MCfg) : ∀ {l : List Item} {i : Nat} {x : Item}, l[i]? = some x → itemsFoot c l = x.W.foot c + itemsFoot c (l.eraseIdx i) := by
  intro l
  induction l with
  | nil => intro i x h; simp at h
  | cons y l ih =>
    intro i x h
    cases i with
    | zero =>
      simp only [List.getElem?_cons_zero, Option.some.injEq] at h
      subst h
      rfl
    | succ i =>
      have := ih (i := i) h
      simp only [itemsFoot, List.map_cons, List.sum_cons, List.eraseIdx_cons_succ] at this ⊢
      rw [this]
      ac_rfl

theorem item_get {l : List Item} {s : St} (hl : l.map Item.t = s.tabs) {t : MTab} (ht : s.tabs[i]? = some t) : ∃ x, l[i]? = some x ∧ x.t = t := by
  rw [← hl, List.getElem?_map] at ht
  exact Option.map_eq_some_iff.mp ht

theorem ok_set {P : Item → Prop} {l : List Item} (hl : ∀ x ∈ l, P x) {y : Item} (hy : P y) : ∀ x ∈ l.set i y, P x := by
  intro x hx
  rcases List.mem_or_eq_of_mem_set hx with h | h
  · exact hl x h
  · rw [h]; exact hy

theorem itemsFoot_set2 (c : MCfg) {l : List Item} {x y : Item} (hx : l[i]? = some x) (hy : l[j]? = some y) (hij : i ≠ j) :
    ∃ S, itemsFoot c l = x.W.foot c + (y.W.foot c + S) ∧
      ∀ x' y', itemsFoot c ((l.set i x').set j y') = x'.W.foot c + (y'.W.foot c + S) := by
  obtain ⟨S, s1, s2⟩ := itemsFoot_set c hx
  have hy' : ∀ x', (l.set i x')[j]? = some y := fun x' => by rw [List.getElem?_set_ne hij, hy]
  obtain ⟨S', t1, t2⟩ := itemsFoot_set c hy
  by_cases h0 : ∃ S'', S = y.W.foot c + S''
  · obtain ⟨S'', e⟩ := h0
    refine ⟨S'', by rw [s1, e], fun x' y' => ?_⟩
    obtain ⟨T, u1, u2⟩ := itemsFoot_set c (hy' x')
    rw [u2]
    rw [s2, e] at u1
    have : T = x'.W.foot c + S'' := by
      refine (add_left_cancel (a := y.W.foot c) ?_).symm
      rw [← u1]; ac_rfl
    rw [this]; ac_rfl
  · refine absurd ?_ h0
    obtain ⟨T, u1, u2⟩ := itemsFoot_set c (hy' ⟨MTab.new, .idle none, true⟩)
    rw [s2] at u1
    exact ⟨T, by simpa [View.foot] using u1⟩

theorem map_set2 {β : Type} (f : Item → β) (l : List Item) (x y : Item) : ((l.set i x).set j y).map f = ((l.map f).set i (f x)).set j (f y) := by
  rw [List.map_set, List.map_set]

theorem get_none {l : List Item} {ts : List MTab} {us : List Bool} (e : l.map Item.t = ts) (e2 : l.map Item.u = us) (h : ts[i]? = none) : us[i]? = none := by
  rw [← e, List.getElem?_map, Option.map_eq_none_iff] at h
  rw [← e2, List.getElem?_map, h]; rfl

/-- every statement keeps the invariant -/
theorem Cmd.run_ok (g : c.Good K) (f : Nat) {clean : Prop} {us us' : List Bool} {s : St} (hI : Inv c K clean us s) (cmd : Cmd) (hv : cmd.Valid c K)
    (hk : clean → 3 ≤ c.kw ∧ cmd.Keeps c) (hus : cmd.flow us = some us') : Safe (K.Deep f 0) (cmd.run c f s) (Inv c K clean us') := by
  obtain ⟨l, L, e1, e2, hok, his, hcl⟩ := hI
  have hlen : l.length = s.tabs.length := by rw [← e1, List.length_map]
  have hlen2 : l.length = us.length := by rw [← e2, List.length_map]
  cases cmd with
  | new =>
    cases hus
    refine ⟨l ++ [⟨MTab.new, .idle none, true⟩], L, by simp [e1], by simp [e2], ?_, his.cast ?_, hcl⟩
    · intro x hx
      rcases List.mem_append.mp hx with h | h
      · exact hok x h
      · rw [List.mem_singleton.mp h]
        exact ⟨View.Of.new, fun _ => rfl, fun _ => rfl⟩
    · rw [itemsFoot_append]; simp [View.foot]
  | newLoad bits bs =>
    cases hus
    simp only [Cmd.run]
    refine ((load_ok g.limit hv.2 (View.Of.new (c := c) (K := K)) rfl (R := itemsFoot c l + L) (his.cast (by simp [View.foot])) hv.1).weaken (fun hd => hd.1)).bind ?_
    rintro ⟨t, h⟩ ⟨W, L1, a1, a2, a3, a4, _⟩
    refine ⟨l ++ [⟨t, W, true⟩], L1 + L, by simp [e1], by simp [e2], ?_, a3.cast ?_, fun hc => ?_⟩
    · intro x hx
      rcases List.mem_append.mp hx with h | h
      · exact hok x h
      · rw [List.mem_singleton.mp h]
        exact ⟨a1, fun _ => a2, fun hc => (a4 ⟨rfl, .inr rfl, (hk hc).2⟩).1⟩
    · rw [itemsFoot_append]; ac_rfl
    · rw [hcl hc, (a4 ⟨rfl, .inr rfl, (hk hc).2⟩).2]; simp
  | call i op =>
    simp only [Cmd.run, Cmd.flow] at hus ⊢
    split at hus
    · cases hus
    next hu =>
    cases hus
    cases ht : s.tabs[i]? with
    | none => exact ⟨l, L, e1, e2, hok, his, hcl⟩
    | some t =>
      obtain ⟨x, x1, x2⟩ := item_get e1 ht
      obtain ⟨o1, o2, o3⟩ := hok x (List.mem_of_getElem? x1)
      have hxu : x.u = true := by
        cases hh : x.u with
        | true => rfl
        | false => exact absurd (by rw [← e2, List.getElem?_map, x1, Option.map_some, hh]) hu
      subst x2
      obtain ⟨S, s1, s2⟩ := itemsFoot_set c x1
      refine (MCall.run_ok g f o1 (o2 hxu) (R := S + L) (his.cast (by rw [s1]; ac_rfl)) op hv).bind ?_
      rintro ⟨t, h⟩ ⟨W, L1, a1, a2, a3, a4, _⟩
      have hc' : clean → W.Clean t ∧ L1 = 0 := fun hc => a4 ⟨o3 hc, (hk hc).1, (hk hc).2⟩
      refine ⟨l.set i ⟨t, W, true⟩, L1 + L, by rw [List.map_set, e1], ?_, ok_set hok ⟨a1, fun _ => a2, fun hc => (hc' hc).1⟩, a3.cast ?_, fun hc => ?_⟩
      · rw [List.map_set, e2]
        exact set_get (by rw [← e2, List.getElem?_map, x1, Option.map_some, hxu])
      · rw [s2]; ac_rfl
      · rw [hcl hc, (hc' hc).2]; simp
  | swap i j =>
    simp only [Cmd.run, Cmd.flow] at hus ⊢
    by_cases hij : i = j
    · rw [if_pos hij] at hus ⊢
      cases hus
      cases hti : s.tabs[i]? with
      | none => exact ⟨l, L, e1, e2, hok, his, hcl⟩
      | some a =>
        have e : s.tabs.set i a = s.tabs := by
          obtain ⟨g1, g2⟩ := List.getElem?_eq_some_iff.mp hti
          rw [← g2, List.set_getElem_self]
        simp only [Own.selfSwap, valsMove, valsAssign, capsMove, capsAssign, Heap.deleteArr, Heap.free, ok_bind]
        exact ⟨l, L, e1.trans e.symm, e2, hok, his, hcl⟩
    · rw [if_neg hij] at hus ⊢
      cases hti : s.tabs[i]? with
      | none =>
        rw [get_none e1 e2 hti] at hus
        cases hus
        exact ⟨l, L, e1, e2, hok, his, hcl⟩
      | some a =>
        obtain ⟨x, x1, rfl⟩ := item_get e1 hti
        have ux : us[i]? = some x.u := by rw [← e2, List.getElem?_map, x1]; rfl
        rw [ux] at hus
        cases htj : s.tabs[j]? with
        | none =>
          rw [get_none e1 e2 htj] at hus
          cases hus
          exact ⟨l, L, e1, e2, hok, his, hcl⟩
        | some b =>
          obtain ⟨y, y1, rfl⟩ := item_get e1 htj
          have uy : us[j]? = some y.u := by rw [← e2, List.getElem?_map, y1]; rfl
          rw [uy] at hus
          cases hus
          obtain ⟨S, s1, s2⟩ := itemsFoot_set2 c x1 y1 hij
          simp only [swap_eq, ok_bind]
          refine ⟨(l.set i y).set j x, L, by rw [map_set2, e1], by rw [map_set2, e2],
            ok_set (ok_set hok (hok y (List.mem_of_getElem? y1))) (hok x (List.mem_of_getElem? x1)), his.cast ?_, hcl⟩
          rw [s1, s2]; ac_rfl
  | moveCtor i =>
    simp only [Cmd.run, Cmd.flow] at hus ⊢
    cases hti : s.tabs[i]? with
    | none =>
      rw [get_none e1 e2 hti] at hus
      cases hus
      exact ⟨l, L, e1, e2, hok, his, hcl⟩
    | some o =>
      obtain ⟨x, x1, rfl⟩ := item_get e1 hti
      have ux : us[i]? = some x.u := by rw [← e2, List.getElem?_map, x1]; rfl
      rw [ux] at hus
      cases hus
      obtain ⟨S, s1, s2⟩ := itemsFoot_set c x1
      have hx := hok x (List.mem_of_getElem? x1)
      refine ⟨l.set i ⟨{ x.t with sizes := none, caps := none }, .idle none, false⟩ ++ [x], L, ?_, ?_, ?_, his.cast ?_, hcl⟩
      · rw [List.map_append, List.map_set, e1]; rfl
      · rw [List.map_append, List.map_set, e2]; rfl
      · intro y hy
        rcases List.mem_append.mp hy with h | h
        · refine ok_set hok ?_ y h
          exact ⟨⟨rfl, rfl, hx.1.novals hv, fun _ => rfl⟩, Bool.noConfusion, fun _ => rfl⟩
        · rw [List.mem_singleton.mp h]; exact hx
      · rw [itemsFoot_append, s1, s2]; simp [View.foot]
  | moveAssign i j =>
    simp only [Cmd.run, Cmd.flow] at hus ⊢
    by_cases hij : i = j
    · rw [if_pos hij] at hus ⊢
      cases hus
      cases hti : s.tabs[i]? with
      | none => exact ⟨l, L, e1, e2, hok, his, hcl⟩
      | some a =>
        obtain ⟨x, x1, rfl⟩ := item_get e1 hti
        obtain ⟨o1, o2, o3⟩ := hok x (List.mem_of_getElem? x1)
        obtain ⟨S, s1, s2⟩ := itemsFoot_set c x1
        obtain ⟨t', h', v, a1, a2, a3, a4, a5, -⟩ := clear_ok o1 (R := S + L) (his.cast (by rw [s1]; ac_rfl))
        simp only [Own.selfMove, a1, ok_bind]
        refine ⟨l.set i ⟨{ t' with vals := none, sizes := none, caps := none }, .idle none, x.u⟩, (View.idle v).foot c + L, by rw [List.map_set, e1]; rfl, ?_,
          ok_set hok ⟨⟨rfl, rfl, rfl, fun _ => rfl⟩, fun e => a4 (o2 e), fun _ => rfl⟩, a3.cast ?_, fun hc => ?_⟩
        · rw [List.map_set, e2]
          have hg : us[i]? = some x.u := by rw [← e2, List.getElem?_map, x1]; rfl
          obtain ⟨g1, g2⟩ := List.getElem?_eq_some_iff.mp hg
          conv => rhs; rw [← List.set_getElem_self g1, g2]
        · rw [s2]; simp only [View.foot, zero_add]; ac_rfl
        · rw [a5 (o3 hc) (hk hc).2, hcl hc]; rfl
    · rw [if_neg hij] at hus ⊢
      cases hti : s.tabs[i]? with
      | none =>
        rw [get_none e1 e2 hti] at hus
        cases hus
        exact ⟨l, L, e1, e2, hok, his, hcl⟩
      | some a =>
        obtain ⟨x, x1, rfl⟩ := item_get e1 hti
        have ux : us[i]? = some x.u := by rw [← e2, List.getElem?_map, x1]; rfl
        rw [ux] at hus
        cases htj : s.tabs[j]? with
        | none =>
          rw [get_none e1 e2 htj] at hus
          cases hus
          exact ⟨l, L, e1, e2, hok, his, hcl⟩
        | some b =>
          obtain ⟨y, y1, rfl⟩ := item_get e1 htj
          have uy : us[j]? = some y.u := by rw [← e2, List.getElem?_map, y1]; rfl
          rw [uy] at hus
          cases hus
          obtain ⟨S, s1, s2⟩ := itemsFoot_set2 c x1 y1 hij
          have hx := hok x (List.mem_of_getElem? x1)
          have hy := hok y (List.mem_of_getElem? y1)
          obtain ⟨t', h', v, a1, a2, a3, -, a5, -⟩ := clear_ok hx.1 (R := y.W.foot c + S + L) (his.cast (by rw [s1]; ac_rfl))
          simp only [Own.moveAssign, a1, ok_bind]
          refine ⟨(l.set i y).set j ⟨{ y.t with vals := none, sizes := none, caps := none }, .idle none, false⟩, (View.idle v).foot c + L,
            by rw [map_set2, e1]; rfl, by rw [map_set2, e2],
            ok_set (ok_set hok hy) ⟨⟨rfl, rfl, rfl, fun _ => rfl⟩, Bool.noConfusion, fun _ => rfl⟩, a3.cast ?_, fun hc => ?_⟩
          · rw [s2]; simp only [View.foot, zero_add]; ac_rfl
          · rw [a5 (hx.2.2 hc) (hk hc).2, hcl hc]; rfl
  | destroy i =>
    cases hus
    simp only [Cmd.run]
    cases ht : s.tabs[i]? with
    | none =>
      have : us.eraseIdx i = us := List.eraseIdx_of_length_le (by have := List.getElem?_eq_none_iff.mp ht; omega)
      rw [this]
      exact ⟨l, L, e1, e2, hok, his, hcl⟩
    | some t =>
      obtain ⟨x, x1, x2⟩ := item_get e1 ht
      obtain ⟨o1, o2, o3⟩ := hok x (List.mem_of_getElem? x1)
      subst x2
      have s1 := itemsFoot_erase c x1
      obtain ⟨h', a1, a2⟩ := destroy_ok o1 (R := itemsFoot c (l.eraseIdx i) + L) (his.cast (by rw [s1]; ac_rfl))
      simp only [a1, ok_bind]
      have em : ∀ {β : Type} (f : Item → β), (l.eraseIdx i).map f = (l.map f).eraseIdx i := fun f => by
        simp [List.eraseIdx_eq_take_drop_succ, List.map_take, List.map_drop]
      exact ⟨l.eraseIdx i, L, by rw [em, e1], by rw [em, e2], fun x hx => hok x (List.mem_of_mem_eraseIdx hx), a2, hcl⟩

theorem prog_ok (g : c.Good K) (f : Nat) {clean : Prop} : ∀ (prog : List Cmd) {us : List Bool} {s : St}, Inv c K clean us s →
    (∀ cmd ∈ prog, cmd.Valid c K) → (clean → 3 ≤ c.kw ∧ ∀ cmd ∈ prog, cmd.Keeps c) → NoUseAfterMove us prog →
    Safe (K.Deep f 0) (prog.foldlM (Cmd.run c f) s) (fun s => ∃ us, Inv c K clean us s) := by
  intro prog
  induction prog with
  | nil => intro us s hI _ _ _; exact ⟨us, hI⟩
  | cons cmd prog ih =>
    intro us s hI hv hk hu
    obtain ⟨us', u1, u2⟩ := hu
    rw [List.foldlM_cons]
    refine (Cmd.run_ok g f hI cmd (hv _ List.mem_cons_self) (fun hc => ⟨(hk hc).1, (hk hc).2 _ List.mem_cons_self⟩) u1).bind ?_
    intro s' hI'
    exact ih hI' (fun x hx => hv x (List.mem_cons_of_mem _ hx)) (fun hc => ⟨(hk hc).1, fun x hx => (hk hc).2 x (List.mem_cons_of_mem _ hx)⟩) u2

theorem Inv.start (c : MCfg) (K : Keys) (clean : Prop) : Inv c K clean [] { heap := Heap.empty, tabs := [] } :=
  ⟨[], 0, rfl, rfl, fun _ h => absurd h List.not_mem_nil, Heap.Is.empty.cast (by simp [itemsFoot]), fun _ => rfl⟩

theorem runProg_ok (g : c.Good K) (f : Nat) {clean : Prop} (prog : List Cmd) (hv : ∀ cmd ∈ prog, cmd.Valid c K)
    (hk : clean → 3 ≤ c.kw ∧ ∀ cmd ∈ prog, cmd.Keeps c) (hu : NoUseAfterMove [] prog) :
    Safe (K.Deep f 0) (runProg c f prog) (fun s => ∃ us, Inv c K clean us s) :=
  prog_ok g f prog (Inv.start c K clean) hv hk hu

theorem destroyAll_ok : ∀ (l : List Item) (h : Heap) (L : Foot), (∀ x ∈ l, x.W.Of c K x.t) → h.Is (itemsFoot c l + L) →
    ∃ h', destroyAll c h (l.map Item.t) = .ok h' ∧ h'.Is L := by
  intro l
  induction l with
  | nil => intro h L _ hI; exact ⟨h, rfl, hI.cast (by simp [itemsFoot])⟩
  | cons x l ih =>
    intro h L hok hI
    obtain ⟨h1, a1, a2⟩ := ih h (x.W.foot c + L) (fun y hy => hok y (List.mem_cons_of_mem _ hy)) (hI.cast (by
      simp only [itemsFoot, List.map_cons, List.sum_cons]; ac_rfl))
    obtain ⟨h2, b1, b2⟩ := destroy_ok (hok x List.mem_cons_self) a2
    exact ⟨h2, by simp only [List.map_cons, destroyAll, a1, ok_bind, b1], b2⟩

theorem Inv.destroyAll (hI : Inv c K clean us s) : ∃ h, Own.destroyAll c s.heap s.tabs = .ok h ∧ (clean → ∀ a, h.mem a = none) := by
  obtain ⟨l, L, e1, -, hok, his, hcl⟩ := hI
  obtain ⟨h, a1, a2⟩ := destroyAll_ok l s.heap L (fun x hx => (hok x hx).1) his
  refine ⟨h, by rw [← e1, a1], fun hc a => ?_⟩
  rw [hcl hc] at a2
  cases hm : h.mem a with
  | none => rfl
  | some b => exact absurd ((a2.mem a b).mp hm) (by simp)

end SC.Own
