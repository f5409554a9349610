import Verif.Table.Bits
import Verif.Group.Table
/-!
# When exactly a table with groups of buckets grows
-/
namespace SC
variable {S O : Type} {g : Cfg S O} {P : Par S O}

/-- no more than `M` of the keys `X` fall into the same group of `w` of `2^s` buckets -/
def UncrowdedG (H : HashMapping) (M w s : Nat) (X : Nat → Prop) : Prop :=
  ∀ (j : Nat) (ks : List Nat), ks.Nodup → (∀ k ∈ ks, X k ∧ ∃ q b, H.map k s = .ok (q, b) ∧ b / w = j) → ks.length ≤ M

theorem UncrowdedG.anti {H : HashMapping} {M w s : Nat} {X Y : Nat → Prop} (h : UncrowdedG H M w s Y) (hs : ∀ k, X k → Y k) : UncrowdedG H M w s X :=
  fun j ks hn hk => h j ks hn (fun k hm => ⟨hs k (hk k hm).1, (hk k hm).2⟩)

/-- keys in the same group stay together when the number of buckets is reduced -/
theorem UncrowdedG.mono {H : HashMapping} {kw M e s s' : Nat} {X : Nat → Prop} (hc : Coarse H kw) (h : UncrowdedG H M (2 ^ e) s X)
    (hX : ∀ k, X k → k < 2 ^ kw) (h1 : 1 ≤ s) (h2 : s ≤ s') (h3 : s' < 64) : UncrowdedG H M (2 ^ e) s' X := by
  intro j ks hn hk
  refine h (j % 2 ^ (s - e)) ks hn (fun k hm => ⟨(hk k hm).1, ?_⟩)
  obtain ⟨q, b, hq, hb⟩ := (hk k hm).2
  obtain ⟨q', hq'⟩ := hc k q b s' s (hX k (hk k hm).1) h1 h2 h3 hq
  refine ⟨q', _, hq', ?_⟩
  rw [← hb]
  rcases Nat.le_total e s with hes | hes
  · have e1 : 2 ^ s = 2 ^ e * 2 ^ (s - e) := by rw [← Nat.pow_add]; congr 1; omega
    rw [e1, Nat.mod_mul_right_div_self]
  · rw [show s - e = 0 by omega, Nat.pow_zero, Nat.mod_one]
    exact Nat.div_eq_of_lt (Nat.lt_of_lt_of_le (Nat.mod_lt _ (Nat.two_pow_pos _)) (Nat.pow_le_pow_right (by omega) hes))

/-- the buckets of a group -/
def groupOf (tb w j : Nat) : List Nat := (List.range (2 ^ tb)).filter (fun x => x / w == j)

theorem mem_groupOf {tb w j x : Nat} : x ∈ groupOf tb w j ↔ x < 2 ^ tb ∧ x / w = j := by simp [groupOf]

/-- A group is full if it holds `maxE` elements, and never holds more. -/
structure Grouped (g : Cfg S O) (P : Par S O) : Prop where
  full : ∀ s d c b, GoodDim P.W d → P.Rep s d c → b < 2 ^ d.tb → g.ops.full s d b = .ok true →
    P.maxE ≤ ((groupOf d.tb d.bpg (b / d.bpg)).map (fun x => (c x).length)).sum
  room : ∀ s d c b, P.Rep s d c → 1 ≤ d.bpg → b < 2 ^ d.tb → ((groupOf d.tb d.bpg (b / d.bpg)).map (fun x => (c x).length)).sum ≤ P.maxE

/-- the keys in a group -/
def groupKeys (H : HashMapping) (tb w : Nat) (c : Cont) (j : Nat) : List Nat :=
  (groupOf tb w j).flatMap (fun b => (c b).map (fun e => invKey H tb b e.1))

theorem groupKeys_length (H : HashMapping) (tb w : Nat) (c : Cont) (j : Nat) :
    (groupKeys H tb w c j).length = ((groupOf tb w j).map (fun x => (c x).length)).sum := by
  unfold groupKeys
  rw [List.length_flatMap]
  simp only [List.length_map]

theorem groupKeys_nodup {H : HashMapping} {kw tb w j : Nat} {c : Cont} {o : List (Nat × Nat × Nat)} (hH : LawfulMapping H kw tb)
    (hc : COK H kw tb c o) : (groupKeys H tb w c j).Nodup := by
  have h := ents_nodup hH hc
  unfold ents at h
  rw [List.map_append] at h
  have h := (List.nodup_append.mp h).1
  refine List.Nodup.sublist ?_ h
  unfold stored groupKeys groupOf
  rw [List.map_flatMap]
  have e : (fun b => List.map Prod.fst (bEnts H tb b (c b))) = fun b => (c b).map (fun e => invKey H tb b e.1) := by
    funext b; simp [bEnts, Function.comp_def]
  rw [e]
  generalize List.range (2 ^ tb) = l
  induction l with
  | nil => simp
  | cons a l ih =>
    rw [List.filter_cons, List.flatMap_cons]
    split
    · rw [List.flatMap_cons]; exact List.Sublist.append (List.Sublist.refl _) ih
    · exact ih.trans (List.sublist_append_right _ _)

theorem Live.not_full_group (L : Laws g P) (K : Grouped g P) {t : Tab S O} {c : Cont} {o : List (Nat × Nat × Nat)} {full : Nat → Bool}
    (h : Live g P t c o full) {X : Nat → Prop} (hX : UncrowdedG (g.hash P.kw) P.maxE t.bpg t.tb X)
    (hs : ∀ e ∈ ents (g.hash P.kw) t.tb c o, X e.1) {k q b : Nat} (hXk : X k) (hk : k < 2 ^ P.kw)
    (hm : (g.hash P.kw).map k t.tb = .ok (q, b)) (hn : q ∉ (c b).map Prod.fst) :
    g.ops.full t.store (t.dim g) b = .ok false := by
  have hb := (invKey_of_map (h.map_ok L) hk hm).2.1
  obtain ⟨r, hr, _⟩ := L.store.full _ _ _ _ (h.good L) h.rep hb
  cases r with
  | false => exact hr
  | true =>
    exfalso
    have hsum : P.maxE ≤ ((groupOf t.tb t.bpg (b / t.bpg)).map (fun x => (c x).length)).sum := K.full _ _ _ _ (h.good L) h.rep hb hr
    rw [← groupKeys_length (g.hash P.kw)] at hsum
    have hsrc : ∀ x ∈ groupKeys (g.hash P.kw) t.tb t.bpg c (b / t.bpg), ∃ b' e, b' < 2 ^ t.tb ∧ b' / t.bpg = b / t.bpg ∧ e ∈ c b' ∧
        x < 2 ^ P.kw ∧ (g.hash P.kw).map x t.tb = .ok (e.1, b') := by
      intro x hx
      obtain ⟨b', hb', hx⟩ := List.mem_flatMap.mp hx
      obtain ⟨e, he, rfl⟩ := List.mem_map.mp hx
      obtain ⟨g1, g2⟩ := mem_groupOf.mp hb'
      obtain ⟨k', hk', hm'⟩ := h.cok.src b' g1 e he
      rw [(invKey_of_map (h.map_ok L) hk' hm').1]
      exact ⟨b', e, g1, g2, he, hk', hm'⟩
    have := hX (b / t.bpg) (k :: groupKeys (g.hash P.kw) t.tb t.bpg c (b / t.bpg)) (by
      rw [List.nodup_cons]
      refine ⟨?_, groupKeys_nodup (h.map_ok L) h.cok⟩
      intro hmem
      obtain ⟨b', e, _, _, he, _, hm'⟩ := hsrc _ hmem
      rw [hm] at hm'
      have e1 : (q, b) = (e.1, b') := Except.ok.inj hm'
      cases e1
      exact hn (List.mem_map.mpr ⟨e, he, rfl⟩)) (by
      intro x hx
      rcases List.mem_cons.mp hx with rfl | hx
      · exact ⟨hXk, q, b, hm, rfl⟩
      · obtain ⟨b', e, _, g2, he, hk', hm'⟩ := hsrc _ hx
        exact ⟨hs _ ((mem_ents (h.map_ok L) h.cok hk' hm').mpr (.inl (show (e.1, e.2) ∈ c b' from he))), _, _, hm', g2⟩)
    rw [List.length_cons] at this
    omega

/-- in a table without overflow table every group has room for its keys -/
theorem Inv.fitsG (L : Laws g P) (K : Grouped g P) (hov : ∀ o n l full, P.RepO o n l full → l = []) {t : Tab S O} {l : List (Nat × Nat)} {m : FMap}
    (h : Inv g P t l) (ha : Abs l m) (htb : t.tb ≠ 0) : UncrowdedG (g.hash P.kw) P.maxE t.bpg t.tb m.keys := by
  rcases h with ⟨_, _, _, _, h5, _⟩ | ⟨c, o, full, hl, hp⟩
  · exact absurd h5 htb
  · intro j ks hn hk
    have ho := hov _ _ _ _ hl.orep
    subst ho
    have hin : ∀ k ∈ ks, ∃ v, (k, v) ∈ l := fun k hk' => by
      have := (hk k hk').1
      unfold FMap.keys at this
      cases e : m.get k with
      | none => exact absurd e this
      | some v => exact ⟨v, (ha.get k v).mp e⟩
    have hlt : ∀ k ∈ ks, k < 2 ^ P.kw := fun k hk' => by
      obtain ⟨v, hv⟩ := hin k hk'
      exact key_lt_of_mem (v := v) (hl.map_ok L) hl.cok (hp.mem_iff.mp hv)
    have hsub : ∀ k ∈ ks, k ∈ groupKeys (g.hash P.kw) t.tb t.bpg c j := fun k hk' => by
      obtain ⟨q, b, hq, hb⟩ := (hk k hk').2
      obtain ⟨v, hv⟩ := hin k hk'
      have hi := invKey_of_map (hl.map_ok L) (hlt k hk') hq
      rcases (mem_ents (hl.map_ok L) hl.cok (hlt k hk') hq).mp (hp.mem_iff.mp hv) with h | ⟨p, h⟩
      · exact List.mem_flatMap.mpr ⟨b, mem_groupOf.mpr ⟨hi.2.1, hb⟩, List.mem_map.mpr ⟨_, h, hi.1⟩⟩
      · simp at h
    cases ks with
    | nil => exact Nat.zero_le _
    | cons a ks =>
      obtain ⟨q, b, hq, hb⟩ := (hk a (by simp)).2
      have hb' := (invKey_of_map (hl.map_ok L) (hlt a (by simp)) hq).2.1
      have h2 : ((groupOf t.tb t.bpg (b / t.bpg)).map (fun x => (c x).length)).sum ≤ P.maxE := K.room _ _ _ _ hl.rep hl.bpg_pos hb'
      rw [← groupKeys_length (g.hash P.kw), hb] at h2
      exact Nat.le_trans (List.Nodup.length_le_of_subset hn (fun k hk' => hsub k hk')) h2

/-- `ins_first` with the size of groups -/
theorem ins_firstG (L : Laws g P) {t : Tab S O} {l : List (Nat × Nat)} (h : Inv g P t l) (h0 : t.tb = 0) :
    l = [] ∧ ∃ t1 full, Live g P t1 (fun _ => []) [] full ∧ t1.tb = P.ini ∧ t1.bpg = t.bpg ∧
      ∀ f k v, Tab.findOrInsert g f t k v = Tab.findOrInsert g f t1 k v := by
  rcases h with ⟨h1, h2, h3, h4, h5, h6, rfl, hst, n, full, h7⟩ | ⟨c, o, full, hl, hp⟩
  · obtain ⟨hi1, hi2, hi3⟩ := L.init
    rw [← h1] at hi1
    obtain ⟨t1, full1, g1, g2, g3, g4⟩ := reserveEmpty_ok L h1 h2 h3 h4 h6 h7 hst hi1 hi2 hi3
    refine ⟨rfl, t1, full1, g2, g3, g4, fun f k v => ?_⟩
    cases f with
    | zero => rfl
    | succ f =>
      have htb := g2.tb_pos L
      have e : 1 < t.kw ∧ 1 < t1.kw := ⟨by rw [h1]; exact L.kw_gt, by rw [g2.tkw]; exact L.kw_gt⟩
      unfold Tab.findOrInsert
      simp only [ddcheck_ok e.1, ddcheck_ok e.2, ok_bind, if_pos h5, g1, if_neg (show ¬ t1.tb = 0 by omega)]
  · have := hl.tb_pos L
    omega

/-- Number of buckets and size of groups after an insertion, if `2^G` buckets are enough for the keys `X`. -/
def GrownG (g : Cfg S O) (P : Par S O) (X : Nat → Prop) (G : Nat) (t t' : Tab S O) : Prop :=
  (t'.tb = P.start t.tb ∧ t'.bpg = t.bpg) ∨
  (¬ UncrowdedG (g.hash P.kw) P.maxE t.bpg (P.start t.tb) X ∧ t'.bpg = g.rehashBpg ∧ P.start t.tb + 1 ≤ t'.tb ∧ t'.tb ≤ max (P.start t.tb + 1) G)

theorem GrownG.rehashed {X : Nat → Prop} {G : Nat} (hG : ∀ tb, G ≤ tb → 1 ≤ tb → tb < 64 → UncrowdedG (g.hash P.kw) P.maxE g.rehashBpg tb X)
    {t t' : Tab S O} (h : GrownG g P X G t t') (hb : t.bpg = g.rehashBpg) (h1 : 1 ≤ P.start t.tb) (h2 : P.start t.tb < 64) :
    t'.bpg = g.rehashBpg ∧ P.start t.tb ≤ t'.tb ∧ t'.tb ≤ max (P.start t.tb) G := by
  rcases h with ⟨h3, h4⟩ | ⟨h3, h4, h5, h6⟩
  · rw [h4, hb]; exact ⟨rfl, by omega, by omega⟩
  · rw [hb] at h3
    have : P.start t.tb < G := by
      rcases Nat.lt_or_ge (P.start t.tb) G with h | h
      · exact h
      · exact absurd (hG _ h h1 h2) h3
    exact ⟨h4, by omega, by omega⟩

theorem Inv.start_range (L : Laws g P) {t : Tab S O} {l : List (Nat × Nat)} (h : Inv g P t l) : 1 ≤ P.start t.tb ∧ P.start t.tb < 64 := by
  have h1 := h.tb_lt L
  have h2 := L.lo_pos
  have h3 := L.init.2
  have h4 := L.hi_lt
  unfold Par.start
  split <;> omega

/-- a sequence of insertions into a table with groups of the final size -/
theorem insAll_tightG (L : Laws g P) {f G : Nat} {X : Nat → Prop}
    (hG : ∀ tb, G ≤ tb → 1 ≤ tb → tb < 64 → UncrowdedG (g.hash P.kw) P.maxE g.rehashBpg tb X)
    (ih : ∀ t l k v t' n, Inv g P t l → (∀ e ∈ l, X e.1) → X k → k < 2 ^ P.kw → P.normO v = P.norm P.vw v → FuelOK P f t →
      Tab.findOrInsert g f t k v = .ok (t', n) → GrownG g P X G t t') :
    ∀ (xs : List (Nat × Nat)) (t t' : Tab S O) (l : List (Nat × Nat)), Inv g P t l → FuelOK P f t → t.bpg = g.rehashBpg →
    (∀ e ∈ xs, e.1 < 2 ^ P.kw ∧ P.norm P.vw e.2 = e.2) → ((l ++ xs).map Prod.fst).Nodup → (∀ e ∈ l ++ xs, X e.1) →
    xs.foldlM (insStep (Tab.findOrInsert g f)) t = .ok t' →
    t'.bpg = g.rehashBpg ∧ (xs = [] → t' = t) ∧ (xs ≠ [] → P.start t.tb ≤ t'.tb ∧ t'.tb ≤ max (P.start t.tb) G) := by
  intro xs
  induction xs with
  | nil => intro t t' l _ _ hb _ _ _ hs; cases hs; exact ⟨hb, fun _ => rfl, fun h => absurd rfl h⟩
  | cons e xs ihx =>
    intro t t' l h hf hb hx hnd hX hs
    obtain ⟨hk, hv⟩ := hx e (by simp)
    have hvo : P.normO e.2 = P.norm P.vw e.2 := by
      have := L.normO_norm e.2
      rw [hv] at this
      rw [this, hv]
    have hnm : e.1 ∉ l.map Prod.fst := by
      rw [List.map_append, List.map_cons] at hnd
      intro hmem
      exact (List.nodup_append.mp hnd).2.2 _ hmem _ (by simp) rfl
    obtain ⟨t1, n, h1, h2, h3, h4⟩ := ins_ok L f t l e.1 e.2 h hk hvo hf
    have hinv := InsRes.inv h2 hnm
    rw [hv] at hinv
    obtain ⟨hpos, h64⟩ := h.start_range L
    obtain ⟨k0, k1, k2⟩ := (ih t l e.1 e.2 t1 n h (fun x hx => hX x (by simp [hx])) (hX e (by simp)) hk hvo hf h1).rehashed hG hb hpos h64
    have hp : ((e :: l) ++ xs).Perm (l ++ e :: xs) := by
      rw [List.cons_append]; exact List.perm_middle.symm
    have hf1 : FuelOK P f t1 := by
      rcases hf with hf | ⟨h5, h6⟩
      · exact .inl hf
      · exact .inr ⟨by omega, by omega⟩
    rw [List.foldlM_cons] at hs
    simp only [insStep, h1, ok_bind, pure_eq_ok] at hs
    obtain ⟨g0, g1, g2⟩ := ihx t1 t' (e :: l) hinv hf1 k0 (fun x hx' => hx x (by simp [hx'])) ((hp.map Prod.fst).nodup_iff.mpr hnd)
      (fun x hx' => hX x (hp.mem_iff.mp hx')) hs
    refine ⟨g0, fun h => (nomatch h), fun _ => ?_⟩
    by_cases hxs : xs = []
    · rw [g1 hxs]; exact ⟨k1, k2⟩
    · have := g2 hxs
      rw [P.start_pos (s := t1.tb) (by omega)] at this
      omega

/-- **`find_or_insert`** enlarges a table only if more than `maxE` keys fall into the same group. -/
theorem ins_tightG (L : Laws g P) (K : Grouped g P) {X : Nat → Prop} {G : Nat}
    (hG : ∀ tb, G ≤ tb → 1 ≤ tb → tb < 64 → UncrowdedG (g.hash P.kw) P.maxE g.rehashBpg tb X) :
    ∀ (f : Nat) (t : Tab S O) (l : List (Nat × Nat)) (k v : Nat) (t' : Tab S O) (n : Nav), Inv g P t l → (∀ e ∈ l, X e.1) → X k →
    k < 2 ^ P.kw → P.normO v = P.norm P.vw v → FuelOK P f t → Tab.findOrInsert g f t k v = .ok (t', n) → GrownG g P X G t t' := by
  intro f
  induction f with
  | zero => intro t l k v t' n _ _ _ _ _ hf; rcases hf with hf | ⟨_, hf⟩ <;> omega
  | succ f ih =>
    -- a table with buckets
    have key : ∀ (t : Tab S O) c o full k v t' n, Live g P t c o full → (∀ e ∈ ents (g.hash P.kw) t.tb c o, X e.1) → X k →
        k < 2 ^ P.kw → P.normO v = P.norm P.vw v → P.grow - t.tb < f + 1 → Tab.findOrInsert g (f + 1) t k v = .ok (t', n) →
        GrownG g P X G t t' := by
      intro t c o full k v t' n h hX hXk hk hv hf hi
      have htb := h.tb_pos L
      have h64 : t.tb < 64 := Nat.lt_of_le_of_lt h.hi L.hi_lt
      have est : P.start t.tb = t.tb := P.start_pos htb
      obtain ⟨q, b, hm, hb⟩ := h.mapk L hk
      obtain ⟨pos, hpos, hcase⟩ := h.locate L hk hm
      have hcons := L.ovf.consult _ _ _ _ b h.orep hb
      unfold Tab.findOrInsert at hi
      have hkw1 : 1 < t.kw := by rw [h.tkw]; exact L.kw_gt
      simp only [ddcheck_ok hkw1, if_neg (show ¬ t.tb = 0 by omega), ok_bind, h.hash, hm, h.checkMap L hk hm, hpos] at hi
      rcases hcase with ⟨rfl, hq'⟩ | ⟨hne, x, hloc⟩
      rotate_left
      · rw [if_pos hne] at hi
        cases hi
        exact .inl ⟨est.symm, rfl⟩
      simp only [ne_eq, not_true_eq_false, if_false, hcons, ok_bind] at hi
      obtain ⟨p, hpp, hpc⟩ := h.ofind L k
      have hfirst : ∃ p', (if full b = true then g.ov.find t.ovf k else .ok NPOS : Res Nat) = .ok p' ∧
          ((p' = NPOS ∧ ∀ e ∈ o, e.2.1 ≠ k) ∨ (p' ≠ NPOS ∧ ∃ v, (p', k, v) ∈ o)) := by
        by_cases hs : full b = true
        · rw [if_pos hs]; exact ⟨p, hpp, hpc⟩
        · rw [if_neg hs]
          refine ⟨NPOS, rfl, .inl ⟨rfl, ?_⟩⟩
          rintro e he rfl
          exact hs (h.ofull e he q b hm)
      obtain ⟨p', hp', hcase'⟩ := hfirst
      rw [hp'] at hi
      simp only [ok_bind] at hi
      rcases hcase' with ⟨rfl, ho⟩ | ⟨hne, x, hx⟩
      rotate_left
      · rw [if_pos hne] at hi
        cases hi
        exact .inl ⟨est.symm, rfl⟩
      simp only [not_true_eq_false, if_false] at hi
      obtain ⟨r, hr, _⟩ := L.store.full _ _ _ _ (h.good L) h.rep hb
      rw [hr] at hi
      simp only [ok_bind] at hi
      cases r with
      | false =>
        simp only [Bool.false_eq_true, if_false] at hi
        obtain ⟨_, _, hi⟩ := bind_eq_ok hi
        obtain ⟨_, _, hi⟩ := bind_eq_ok hi
        cases hi
        exact .inl ⟨est.symm, rfl⟩
      | true =>
        have hgrow : t.tb < P.grow := by
          rcases Nat.lt_or_ge t.tb P.grow with h1 | h1
          · exact h1
          · rw [h.not_full L h1 hk hm hq'] at hr; exact absurd hr (by simp)
        have hcrowd : ¬ UncrowdedG (g.hash P.kw) P.maxE t.bpg (P.start t.tb) X := by
          intro hu
          rw [est] at hu
          rw [h.not_full_group L K hu hX hXk hk hm hq'] at hr
          exact absurd hr (by simp)
        have hov : ∃ o1 p1, (if g.ov.size t.ovf < g.ov.capacity t.ovf then g.ov.insert t.ovf b k v
            else .ok (t.ovf, NPOS) : Res (O × Nat)) = .ok (o1, p1) ∧
            (p1 = NPOS → ∃ full', Live g P { t with ovf := o1 } c o full') := by
          by_cases hcap : g.ov.size t.ovf < g.ov.capacity t.ovf
          · rw [if_pos hcap]
            rcases L.ovf.insert _ _ _ _ b k v h.orep hb hcap ho hv with
              ⟨o1, full1, g1, g2, g3⟩ | ⟨o1, full1, p1, o', g1, g2, g3, g4, g5, g6⟩
            · exact ⟨o1, NPOS, g1, fun _ => ⟨full1, { h with
                orep := g2, ofull := fun e he q b hm => g3 _ (h.ofull e he q b hm) }⟩⟩
            · exact ⟨o1, p1, g1, fun e => absurd e g2⟩
          · rw [if_neg hcap]
            exact ⟨t.ovf, NPOS, rfl, fun _ => ⟨full, h⟩⟩
        obtain ⟨o1, p1, ho1, hcase1⟩ := hov
        simp only [if_true, ho1, ok_bind] at hi
        by_cases hp1 : p1 = NPOS
        · obtain ⟨full', hl'⟩ := hcase1 hp1
          simp only [hp1, not_true_eq_false, if_false] at hi
          have hgl := L.grow_le
          have hhi := L.hi_lt
          have hlo := h.lo
          have hsh : shl64 1 (t.tb + 1) = .ok (2 ^ (t.tb + 1)) := by
            have hlt : t.tb + 1 < 64 := by omega
            unfold shl64
            rw [if_pos hlt, Nat.shiftLeft_eq, Nat.one_mul]
            exact congrArg _ (Nat.mod_eq_of_lt (Nat.pow_lt_pow_right (by omega) hlt))
          rw [hsh] at hi
          simp only [ok_bind] at hi
          obtain ⟨t2, hres, hi⟩ := bind_eq_ok hi
          have hinv' : Inv g P { t with ovf := o1 } (ents (g.hash P.kw) t.tb c o) := .inr ⟨c, o, full', hl', .refl _⟩
          have hx : ∀ e ∈ ents (g.hash P.kw) t.tb c o, e.1 < 2 ^ P.kw ∧ P.norm P.vw e.2 = e.2 :=
            fun e he => ⟨hinv'.key_lt L he, hinv'.val_norm he⟩
          have hrb : reserveBits (2 ^ (t.tb + 1)) = .ok (t.tb + 1) := reserveBits_pow (by omega)
          obtain ⟨t2', g1, g2, g3, g4⟩ := reserveWith_ok L L (Tab.findOrInsert g f) (ins_ok L f) hl' (n := 2 ^ (t.tb + 1))
            (r := t.tb + 1) (nkw := 0) hrb (by omega) (by omega) (by simp) rfl (by omega) hx
          have e2 : t2' = t2 := by
            have := g1.symm.trans (show Tab.reserveWith g (Tab.findOrInsert g f) { t with ovf := o1 } (2 ^ (t.tb + 1)) 0 = .ok t2 from hres)
            cases this; rfl
          subst e2
          obtain ⟨t1, f1, f2⟩ := reserveWith_fold L (Tab.findOrInsert g f) hl' hrb g1
          obtain ⟨full0, ho0⟩ := L.ovf.new P.kw P.vw
          obtain ⟨t1', full1, h1, h2, h3, h4⟩ := reserveEmpty_ok L
            (t := { Tab.new g P.kw P.vw with bpg := g.rehashBpg }) (n := 2 ^ (t.tb + 1)) (r := t.tb + 1) rfl rfl L.rbpg_pos L.rbpg_le rfl
            ho0 L.fresh hrb (by omega) (by omega)
          rw [f1] at h1
          cases h1
          obtain ⟨m0, m1, m2⟩ := insAll_tightG L hG ih (ents (g.hash P.kw) t.tb c o) t1 t2' [] (.inr ⟨_, _, _, h2, by rw [ents_nil]⟩)
            (.inr ⟨by omega, by omega⟩) h4 hx (by simpa using ents_nodup (h.map_ok L) h.cok) (by simpa using hX) f2
          have hle2 : t.tb + 1 ≤ t2'.tb ∧ t2'.tb ≤ max (t.tb + 1) G := by
            by_cases hnil : ents (g.hash P.kw) t.tb c o = []
            · rw [m1 hnil]; omega
            · have := m2 hnil
              rw [P.start_pos (by omega)] at this
              omega
          obtain ⟨s1, s2⟩ := g2.start_range L
          obtain ⟨k0, k1, k2⟩ := (ih t2' _ k v t' n g2 (fun e he => hX e he) hXk hk hv (.inr ⟨by omega, by omega⟩) hi).rehashed hG m0 s1 s2
          rw [P.start_pos (by omega)] at k1 k2
          exact .inr ⟨hcrowd, k0, by omega, by omega⟩
        · simp only [hp1, not_false_eq_true, if_true, pure_eq_ok] at hi
          cases hi
          exact .inl ⟨est.symm, rfl⟩
    intro t l k v t' n h hX hXk hk hv hf hi
    by_cases h0 : t.tb = 0
    · obtain ⟨rfl, t1, full, h1, h2, h2', h3⟩ := ins_firstG L h h0
      rw [h3] at hi
      have hf' : P.grow < f + 1 := by rcases hf with hf | ⟨hf, _⟩ <;> omega
      have hpos := h1.tb_pos L
      have := key t1 _ _ _ k v t' n h1 (by rw [ents_nil]; simp) hXk hk hv (by omega) hi
      have e : P.start t.tb = P.start t1.tb := by
        rw [P.start_pos hpos, h2]; unfold Par.start; rw [if_pos h0]
      unfold GrownG at this ⊢
      rw [e, ← h2']
      exact this
    · rcases h with ⟨_, _, _, _, h5, _⟩ | ⟨c, o, full, hl, hp⟩
      · exact absurd h5 h0
      · exact key t c o full k v t' n hl (fun e he => hX e (hp.mem_iff.mpr he)) hXk hk hv
          (by rcases hf with hf | ⟨_, hf⟩ <;> omega) hi

end SC
