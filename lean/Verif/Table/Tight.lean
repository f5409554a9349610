import Verif.Table.Crowd
/-!
# When exactly a table grows
-/
namespace SC
variable {S O : Type} {g : Cfg S O} {P : Par S O}

/-- no more than `M` of the keys `X` fall into the same of `2^s` buckets -/
def Uncrowded (H : HashMapping) (M s : Nat) (X : Nat → Prop) : Prop :=
  ∀ (b : Nat) (ks : List Nat), ks.Nodup → (∀ k ∈ ks, X k ∧ ∃ q, H.map k s = .ok (q, b)) → ks.length ≤ M

theorem Uncrowded.anti {H : HashMapping} {M s : Nat} {X Y : Nat → Prop} (h : Uncrowded H M s Y) (hs : ∀ k, X k → Y k) : Uncrowded H M s X :=
  fun b ks hn hk => h b ks hn (fun k hm => ⟨hs k (hk k hm).1, (hk k hm).2⟩)

/-- the number of bits with which an insertion starts -/
def Par.start (P : Par S O) (s : Nat) : Nat := if s = 0 then P.ini else s

theorem Par.start_pos (P : Par S O) {s : Nat} (h : 1 ≤ s) : P.start s = s := by unfold Par.start; rw [if_neg (by omega)]

/-- a bucket is full only if it is one too many -/
theorem Live.not_full_fits (L : Laws g P) (hcl : P.cl ≤ 1) {t : Tab S O} {c : Cont} {o : List (Nat × Nat × Nat)} {full : Nat → Bool}
    (h : Live g P t c o full) {X : Nat → Prop} (hX : Uncrowded (g.hash P.kw) P.maxE t.tb X)
    (hs : ∀ e ∈ ents (g.hash P.kw) t.tb c o, X e.1) {k q b : Nat} (hXk : X k) (hk : k < 2 ^ P.kw)
    (hm : (g.hash P.kw).map k t.tb = .ok (q, b)) (hn : q ∉ (c b).map Prod.fst) :
    g.ops.full t.store (t.dim g) b = .ok false := by
  have hb := (invKey_of_map (h.map_ok L) hk hm).2.1
  obtain ⟨r, hr, hfull⟩ := L.store.full _ _ _ _ (h.good L) h.rep hb
  cases r with
  | false => exact hr
  | true =>
    exfalso
    obtain ⟨bs, _, hbm, hlen, hbs, hsum⟩ := hfull rfl
    have ebs : bs = [b] := by
      match bs, hbm, hlen with
      | [x], hbm, _ => simp only [List.mem_singleton] at hbm; rw [hbm]
      | x :: y :: bs, _, hlen => simp at hlen; omega
    subst ebs
    simp only [List.map_cons, List.map_nil, List.sum_cons, List.sum_nil, Nat.add_zero] at hsum
    have := hX b (k :: (c b).map (fun e => invKey (g.hash P.kw) t.tb b e.1)) (by
      rw [List.nodup_cons]
      refine ⟨?_, h.bucket_keys L hb⟩
      intro hmem
      obtain ⟨e, he, heq⟩ := List.mem_map.mp hmem
      obtain ⟨k', hk', hm'⟩ := h.cok.src b hb e he
      rw [(invKey_of_map (h.map_ok L) hk' hm').1] at heq
      subst heq
      rw [hm] at hm'
      have e1 : q = e.1 := congrArg Prod.fst (Except.ok.inj hm')
      exact hn (List.mem_map.mpr ⟨e, he, e1.symm⟩)) (by
      intro x hx
      rcases List.mem_cons.mp hx with rfl | hx
      · exact ⟨hXk, q, hm⟩
      · obtain ⟨e, he, rfl⟩ := List.mem_map.mp hx
        obtain ⟨k', hk', hm'⟩ := h.cok.src b hb e he
        rw [(invKey_of_map (h.map_ok L) hk' hm').1]
        exact ⟨hs _ ((mem_ents (h.map_ok L) h.cok hk' hm').mpr (.inl (show (e.1, e.2) ∈ c b from he))), _, hm'⟩)
    simp at this
    omega

/-- The first insertion into a table without buckets is one into an empty table with `2^ini` buckets. -/
theorem ins_first (L : Laws g P) {t : Tab S O} {l : List (Nat × Nat)} (h : Inv g P t l) (h0 : t.tb = 0) :
    l = [] ∧ ∃ t1 full, Live g P t1 (fun _ => []) [] full ∧ t1.tb = P.ini ∧
      ∀ f k v, Tab.findOrInsert g f t k v = Tab.findOrInsert g f t1 k v := by
  rcases h with ⟨h1, h2, h3, h4, h5, h6, rfl, hst, n, full, h7⟩ | ⟨c, o, full, hl, hp⟩
  · obtain ⟨hi1, hi2, hi3⟩ := L.init
    rw [← h1] at hi1
    obtain ⟨t1, full1, g1, g2, g3, _⟩ := reserveEmpty_ok L h1 h2 h3 h4 h6 h7 hst hi1 hi2 hi3
    refine ⟨rfl, t1, full1, g2, g3, fun f k v => ?_⟩
    cases f with
    | zero => rfl
    | succ f =>
      have htb := g2.tb_pos L
      have e : 1 < t.kw ∧ 1 < t1.kw := ⟨by rw [h1]; exact L.kw_gt, by rw [g2.tkw]; exact L.kw_gt⟩
      unfold Tab.findOrInsert
      simp only [ddcheck_ok e.1, ddcheck_ok e.2, ok_bind, if_pos h5, g1, if_neg (show ¬ t1.tb = 0 by omega)]
  · have := hl.tb_pos L
    omega

/-- what `reserve` does to a table with buckets -/
theorem reserveWith_fold (L : Laws g P) (ins : Tab S O → Nat → Nat → Res (Tab S O × Nav)) {t t' : Tab S O} {c : Cont}
    {o : List (Nat × Nat × Nat)} {full : Nat → Bool} (h : Live g P t c o full) {n r : Nat} (hr : reserveBits n = .ok r)
    (hres : t.reserveWith g ins n 0 = .ok t') :
    ∃ t1, Tab.reserveEmpty g { Tab.new g P.kw P.vw with bpg := g.rehashBpg } (2 ^ r) = .ok t1 ∧
      (ents (g.hash P.kw) t.tb c o).foldlM (insStep ins) t1 = .ok t' := by
  have htb := h.tb_pos L
  unfold Tab.reserveWith at hres
  rw [hr, ok_bind, if_neg (by omega)] at hres
  simp only [if_true, h.tkw, h.tvw] at hres
  obtain ⟨t1, h1, hres⟩ := bind_eq_ok hres
  obtain ⟨t2, h2, hres⟩ := bind_eq_ok hres
  obtain ⟨_, _, hres⟩ := bind_eq_ok hres
  obtain ⟨t3, h3, hres⟩ := bind_eq_ok hres
  obtain ⟨_, _, hres⟩ := bind_eq_ok hres
  cases hres
  refine ⟨t1, h1, ?_⟩
  rw [← h.rehash L ins t1, h2, ok_bind, h3]

/-- a sequence of insertions -/
theorem insAll_tight (L : Laws g P) {f G : Nat} {X : Nat → Prop}
    (ih : ∀ t l k v t' n, Inv g P t l → (∀ e ∈ l, X e.1) → X k → k < 2 ^ P.kw → P.normO v = P.norm P.vw v → FuelOK P f t →
      Tab.findOrInsert g f t k v = .ok (t', n) → P.start t.tb ≤ t'.tb ∧ t'.tb ≤ max (P.start t.tb) G) :
    ∀ (xs : List (Nat × Nat)) (t t' : Tab S O) (l : List (Nat × Nat)), Inv g P t l → FuelOK P f t →
    (∀ e ∈ xs, e.1 < 2 ^ P.kw ∧ P.norm P.vw e.2 = e.2) → ((l ++ xs).map Prod.fst).Nodup → (∀ e ∈ l ++ xs, X e.1) →
    xs.foldlM (insStep (Tab.findOrInsert g f)) t = .ok t' →
    (xs = [] → t' = t) ∧ (xs ≠ [] → P.start t.tb ≤ t'.tb ∧ t'.tb ≤ max (P.start t.tb) G) := by
  intro xs
  induction xs with
  | nil => intro t t' l _ _ _ _ _ hs; cases hs; exact ⟨fun _ => rfl, fun h => absurd rfl h⟩
  | cons e xs ihx =>
    intro t t' l h hf hx hnd hX hs
    refine ⟨fun h => (nomatch h), fun _ => ?_⟩
    obtain ⟨hk, hv⟩ := hx e (by simp)
    have hvo : P.normO e.2 = P.norm P.vw e.2 := by
      have := L.normO_norm e.2
      rw [hv] at this
      rw [this, hv]
    have hnm : e.1 ∉ l.map Prod.fst := by
      rw [List.map_append, List.map_cons] at hnd
      intro hmem
      exact (List.nodup_append.mp hnd).2.2 _ hmem _ (by simp) rfl
    obtain ⟨t1, n, h1, h2, h3, h4⟩ := ins_ok L f t l e.1 e.2 h hk hvo hf
    have hinv := InsRes.inv h2 hnm
    rw [hv] at hinv
    obtain ⟨k1, k2⟩ := ih t l e.1 e.2 t1 n h (fun x hx => hX x (by simp [hx])) (hX e (by simp)) hk hvo hf h1
    have hp : ((e :: l) ++ xs).Perm (l ++ e :: xs) := by
      rw [List.cons_append]; exact List.perm_middle.symm
    have hi := L.lo_pos
    have hini := L.init.2.1
    have hpos : 1 ≤ P.start t.tb := by unfold Par.start; split <;> omega
    have hf1 : FuelOK P f t1 := by
      rcases hf with hf | ⟨h5, h6⟩
      · exact .inl hf
      · exact .inr ⟨by omega, by omega⟩
    rw [List.foldlM_cons] at hs
    simp only [insStep, h1, ok_bind, pure_eq_ok] at hs
    obtain ⟨g1, g2⟩ := ihx t1 t' (e :: l) hinv hf1 (fun x hx' => hx x (by simp [hx'])) ((hp.map Prod.fst).nodup_iff.mpr hnd)
      (fun x hx' => hX x (hp.mem_iff.mp hx')) hs
    by_cases hxs : xs = []
    · rw [g1 hxs]; exact ⟨k1, k2⟩
    · have := g2 hxs
      rw [P.start_pos (s := t1.tb) (by omega)] at this
      omega

/-- **`find_or_insert`** enlarges a table only if more than `maxE` keys fall into the same bucket. -/
theorem ins_tight (L : Laws g P) (hcl : P.cl ≤ 1) {X : Nat → Prop} {G : Nat}
    (hG : ∀ tb, G ≤ tb → 1 ≤ tb → tb < 64 → Uncrowded (g.hash P.kw) P.maxE tb X) :
    ∀ (f : Nat) (t : Tab S O) (l : List (Nat × Nat)) (k v : Nat) (t' : Tab S O) (n : Nav), Inv g P t l → (∀ e ∈ l, X e.1) → X k →
    k < 2 ^ P.kw → P.normO v = P.norm P.vw v → FuelOK P f t → Tab.findOrInsert g f t k v = .ok (t', n) →
    P.start t.tb ≤ t'.tb ∧ t'.tb ≤ max (P.start t.tb) G := by
  intro f
  induction f with
  | zero => intro t l k v t' n _ _ _ _ _ hf; rcases hf with hf | ⟨_, hf⟩ <;> omega
  | succ f ih =>
    -- a table with buckets
    have key : ∀ (t : Tab S O) c o full k v t' n, Live g P t c o full → (∀ e ∈ ents (g.hash P.kw) t.tb c o, X e.1) → X k →
        k < 2 ^ P.kw → P.normO v = P.norm P.vw v → P.grow - t.tb < f + 1 → Tab.findOrInsert g (f + 1) t k v = .ok (t', n) →
        t.tb ≤ t'.tb ∧ t'.tb ≤ max t.tb G := by
      intro t c o full k v t' n h hX hXk hk hv hf hi
      have htb := h.tb_pos L
      have h64 : t.tb < 64 := Nat.lt_of_le_of_lt h.hi L.hi_lt
      obtain ⟨q, b, hm, hb⟩ := h.mapk L hk
      obtain ⟨pos, hpos, hcase⟩ := h.locate L hk hm
      have hcons := L.ovf.consult _ _ _ _ b h.orep hb
      unfold Tab.findOrInsert at hi
      have hkw1 : 1 < t.kw := by rw [h.tkw]; exact L.kw_gt
      simp only [ddcheck_ok hkw1, if_neg (show ¬ t.tb = 0 by omega), ok_bind, h.hash, hm, h.checkMap L hk hm, hpos] at hi
      rcases hcase with ⟨rfl, hq'⟩ | ⟨hne, x, hloc⟩
      rotate_left
      · rw [if_pos hne] at hi
        cases hi
        omega
      simp only [ne_eq, not_true_eq_false, if_false, hcons, ok_bind] at hi
      obtain ⟨p, hpp, hpc⟩ := h.ofind L k
      have hfirst : ∃ p', (if full b = true then g.ov.find t.ovf k else .ok NPOS : Res Nat) = .ok p' ∧
          ((p' = NPOS ∧ ∀ e ∈ o, e.2.1 ≠ k) ∨ (p' ≠ NPOS ∧ ∃ v, (p', k, v) ∈ o)) := by
        by_cases hs : full b = true
        · rw [if_pos hs]; exact ⟨p, hpp, hpc⟩
        · rw [if_neg hs]
          refine ⟨NPOS, rfl, .inl ⟨rfl, ?_⟩⟩
          rintro e he rfl
          exact hs (h.ofull e he q b hm)
      obtain ⟨p', hp', hcase'⟩ := hfirst
      rw [hp'] at hi
      simp only [ok_bind] at hi
      rcases hcase' with ⟨rfl, ho⟩ | ⟨hne, x, hx⟩
      rotate_left
      · rw [if_pos hne] at hi
        cases hi
        omega
      simp only [not_true_eq_false, if_false] at hi
      obtain ⟨r, hr, _⟩ := L.store.full _ _ _ _ (h.good L) h.rep hb
      rw [hr] at hi
      simp only [ok_bind] at hi
      cases r with
      | false =>
        simp only [Bool.false_eq_true, if_false] at hi
        obtain ⟨_, _, hi⟩ := bind_eq_ok hi
        obtain ⟨_, _, hi⟩ := bind_eq_ok hi
        cases hi
        show t.tb ≤ t.tb ∧ t.tb ≤ _
        omega
      | true =>
        have hgrow : t.tb < P.grow := by
          rcases Nat.lt_or_ge t.tb P.grow with h1 | h1
          · exact h1
          · rw [h.not_full L h1 hk hm hq'] at hr; exact absurd hr (by simp)
        have hlt : t.tb < G := by
          rcases Nat.lt_or_ge t.tb G with h1 | h1
          · exact h1
          · rw [h.not_full_fits L hcl (hG t.tb h1 htb h64) hX hXk hk hm hq'] at hr; exact absurd hr (by simp)
        have hov : ∃ o1 p1, (if g.ov.size t.ovf < g.ov.capacity t.ovf then g.ov.insert t.ovf b k v
            else .ok (t.ovf, NPOS) : Res (O × Nat)) = .ok (o1, p1) ∧
            (p1 = NPOS → ∃ full', Live g P { t with ovf := o1 } c o full') := by
          by_cases hcap : g.ov.size t.ovf < g.ov.capacity t.ovf
          · rw [if_pos hcap]
            rcases L.ovf.insert _ _ _ _ b k v h.orep hb hcap ho hv with
              ⟨o1, full1, g1, g2, g3⟩ | ⟨o1, full1, p1, o', g1, g2, g3, g4, g5, g6⟩
            · exact ⟨o1, NPOS, g1, fun _ => ⟨full1, { h with
                orep := g2, ofull := fun e he q b hm => g3 _ (h.ofull e he q b hm) }⟩⟩
            · exact ⟨o1, p1, g1, fun e => absurd e g2⟩
          · rw [if_neg hcap]
            exact ⟨t.ovf, NPOS, rfl, fun _ => ⟨full, h⟩⟩
        obtain ⟨o1, p1, ho1, hcase1⟩ := hov
        simp only [if_true, ho1, ok_bind] at hi
        by_cases hp1 : p1 = NPOS
        · obtain ⟨full', hl'⟩ := hcase1 hp1
          simp only [hp1, not_true_eq_false, if_false] at hi
          have hgl := L.grow_le
          have hhi := L.hi_lt
          have hlo := h.lo
          have hsh : shl64 1 (t.tb + 1) = .ok (2 ^ (t.tb + 1)) := by
            have hlt : t.tb + 1 < 64 := by omega
            unfold shl64
            rw [if_pos hlt, Nat.shiftLeft_eq, Nat.one_mul]
            exact congrArg _ (Nat.mod_eq_of_lt (Nat.pow_lt_pow_right (by omega) hlt))
          rw [hsh] at hi
          simp only [ok_bind] at hi
          obtain ⟨t2, hres, hi⟩ := bind_eq_ok hi
          have hinv' : Inv g P { t with ovf := o1 } (ents (g.hash P.kw) t.tb c o) := .inr ⟨c, o, full', hl', .refl _⟩
          have hx : ∀ e ∈ ents (g.hash P.kw) t.tb c o, e.1 < 2 ^ P.kw ∧ P.norm P.vw e.2 = e.2 :=
            fun e he => ⟨hinv'.key_lt L he, hinv'.val_norm he⟩
          have hrb : reserveBits (2 ^ (t.tb + 1)) = .ok (t.tb + 1) := reserveBits_pow (by omega)
          obtain ⟨t2', g1, g2, g3, g4⟩ := reserveWith_ok L L (Tab.findOrInsert g f) (ins_ok L f) hl' (n := 2 ^ (t.tb + 1))
            (r := t.tb + 1) (nkw := 0) hrb (by omega) (by omega) (by simp) rfl (by omega) hx
          have e2 : t2' = t2 := by
            have := g1.symm.trans (show Tab.reserveWith g (Tab.findOrInsert g f) { t with ovf := o1 } (2 ^ (t.tb + 1)) 0 = .ok t2 from hres)
            cases this; rfl
          subst e2
          obtain ⟨t1, f1, f2⟩ := reserveWith_fold L (Tab.findOrInsert g f) hl' hrb g1
          obtain ⟨full0, ho0⟩ := L.ovf.new P.kw P.vw
          obtain ⟨t1', full1, h1, h2, h3, _⟩ := reserveEmpty_ok L
            (t := { Tab.new g P.kw P.vw with bpg := g.rehashBpg }) (n := 2 ^ (t.tb + 1)) (r := t.tb + 1) rfl rfl L.rbpg_pos L.rbpg_le rfl
            ho0 L.fresh hrb (by omega) (by omega)
          rw [f1] at h1
          cases h1
          obtain ⟨m1, m2⟩ := insAll_tight L ih (ents (g.hash P.kw) t.tb c o) t1 t2' [] (.inr ⟨_, _, _, h2, by rw [ents_nil]⟩)
            (.inr ⟨by omega, by omega⟩) hx (by simpa using ents_nodup (h.map_ok L) h.cok) (by simpa using hX) f2
          have hle2 : t2'.tb ≤ max (t.tb + 1) G := by
            by_cases hnil : ents (g.hash P.kw) t.tb c o = []
            · rw [m1 hnil]; omega
            · have := (m2 hnil).2
              rw [P.start_pos (by omega)] at this
              omega
          have := ih t2' _ k v t' n g2 (fun e he => hX e he) hXk hk hv (.inr ⟨by omega, by omega⟩) hi
          rw [P.start_pos (by omega)] at this
          omega
        · simp only [hp1, not_false_eq_true, if_true, pure_eq_ok] at hi
          cases hi
          show t.tb ≤ t.tb ∧ t.tb ≤ _
          omega
    intro t l k v t' n h hX hXk hk hv hf hi
    by_cases h0 : t.tb = 0
    · obtain ⟨rfl, t1, full, h1, h2, h3⟩ := ins_first L h h0
      rw [h3] at hi
      have hf' : P.grow < f + 1 := by rcases hf with hf | ⟨hf, _⟩ <;> omega
      have := key t1 _ _ _ k v t' n h1 (by rw [ents_nil]; simp) hXk hk hv (by omega) hi
      unfold Par.start
      rw [if_pos h0, ← h2]
      exact this
    · rcases h with ⟨_, _, _, _, h5, _⟩ | ⟨c, o, full, hl, hp⟩
      · exact absurd h5 h0
      · rw [P.start_pos (by omega)]
        exact key t c o full k v t' n hl (fun e he => hX e (hp.mem_iff.mpr he)) hXk hk hv
          (by rcases hf with hf | ⟨_, hf⟩ <;> omega) hi

end SC
