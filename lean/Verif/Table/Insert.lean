import Verif.Table.Access
/-!
# Correctness of insertion and rehashing
-/
namespace SC
variable {S O : Type} {g : Cfg S O} {P : Par S O}

section folds
variable {α β γ : Type}

theorem foldlM_range (xs : List α) (f : β → Nat → Res β) (h : β → α → Res β)
    (hf : ∀ b i (hi : i < xs.length), f b i = h b xs[i]) (b : β) :
    (List.range xs.length).foldlM f b = xs.foldlM h b := by
  induction xs generalizing b f with
  | nil => rfl
  | cons x xs ih =>
    rw [List.length_cons, List.range_succ_eq_map, List.foldlM_cons, List.foldlM_cons, hf b 0 (by simp)]
    simp only [List.getElem_cons_zero]
    cases h b x with
    | error e => rfl
    | ok b' =>
      simp only [ok_bind]
      rw [List.foldlM_map]
      exact ih (fun b i => f b (i + 1)) (fun b i hi => by rw [hf b (i + 1) (by simpa using hi)]; rfl) b'

theorem foldlM_flatMap (xs : List α) (f : α → List γ) (h : β → γ → Res β) (b : β) :
    (xs.flatMap f).foldlM h b = xs.foldlM (fun b x => (f x).foldlM h b) b := by
  induction xs generalizing b with
  | nil => rfl
  | cons x xs ih =>
    rw [List.flatMap_cons, List.foldlM_append, List.foldlM_cons]
    cases (f x).foldlM h b with
    | error e => rfl
    | ok b' => simp only [ok_bind]; exact ih b'

theorem foldlM_congr_mem (xs : List α) (f h : β → α → Res β) (hf : ∀ b, ∀ x ∈ xs, f b x = h b x) (b : β) :
    xs.foldlM f b = xs.foldlM h b := by
  induction xs generalizing b with
  | nil => rfl
  | cons x xs ih =>
    rw [List.foldlM_cons, List.foldlM_cons, hf b x (by simp)]
    cases h b x with
    | error e => rfl
    | ok b' => simp only [ok_bind]; exact ih (fun b y hy => hf b y (by simp [hy])) b'
end folds

/-- insert one pair -/
def insStep (ins : Tab S O → Nat → Nat → Res (Tab S O × Nav)) (tmp : Tab S O) (e : Nat × Nat) : Res (Tab S O) := do
  let (tmp, _) ← ins tmp e.1 e.2
  return tmp

theorem Live.moveBucket (L : Laws g P) {t : Tab S O} {c : Cont} {o : List (Nat × Nat × Nat)} {full : Nat → Bool}
    (h : Live g P t c o full) (ins : Tab S O → Nat → Nat → Res (Tab S O × Nav)) (tmp : Tab S O) {b : Nat}
    (hb : b < 2 ^ t.tb) :
    t.moveBucket g ins tmp b = (bEnts (g.hash P.kw) t.tb b (c b)).foldlM (insStep ins) tmp := by
  unfold Tab.moveBucket
  rw [L.store.size _ _ _ _ (h.good L) h.rep hb, ok_bind, bEnts, List.foldlM_map]
  apply foldlM_range
  intro tmp i hi
  have hm := h.cok.src b hb _ (List.getElem_mem hi)
  obtain ⟨k, hk, hm⟩ := hm
  have hinv := (invKey_of_map (h.map_ok L) hk hm)
  simp only [L.store.quotientAt _ _ _ _ _ (h.good L) h.rep hb hi, L.store.valueAt _ _ _ _ _ (h.good L) h.rep hb hi,
    ok_bind, h.hash, hinv.2.2.2, hinv.1, insStep]

theorem walk_move (ins : Tab S O → Nat → Nat → Res (Tab S O × Nav)) (t : Tab S O) :
    ∀ (l : List (Nat × Nat × Nat)) (f i : Nat) (tmp : Tab S O), OvWalk g.ov t.ovf i l → l.length < f →
    (∀ e ∈ l, g.ov.key t.ovf e.1 = .ok e.2.1 ∧ g.ov.read t.ovf e.1 = .ok e.2.2) →
    t.moveOverflow g ins f i tmp = (l.map (fun e => e.2)).foldlM (insStep ins) tmp := by
  intro l
  induction l with
  | nil =>
    intro f i tmp h hf _
    obtain ⟨f, rfl⟩ : ∃ f', f = f' + 1 := ⟨f - 1, by simp at hf; omega⟩
    have h : g.ov.validPosition t.ovf i = false := h
    simp [Tab.moveOverflow, h]
  | cons e l ih =>
    intro f i tmp h hf hr
    obtain ⟨f, rfl⟩ : ∃ f', f = f' + 1 := ⟨f - 1, by simp at hf; omega⟩
    obtain ⟨rfl, h2, h3⟩ := h
    obtain ⟨r1, r2⟩ := hr e (by simp)
    simp only [Tab.moveOverflow, h2, if_true, r1, r2, ok_bind, List.map_cons, List.foldlM_cons, insStep]
    cases ins tmp e.2.1 e.2.2 with
    | error x => rfl
    | ok r =>
      simp only [ok_bind, pure_eq_ok]
      exact ih f _ _ h3 (by simp at hf; omega) (fun e he => hr e (by simp [he]))

/-- What a rehash does is to insert all pairs into a new table. -/
theorem Live.rehash (L : Laws g P) {t : Tab S O} {c : Cont} {o : List (Nat × Nat × Nat)} {full : Nat → Bool}
    (h : Live g P t c o full) (ins : Tab S O → Nat → Nat → Res (Tab S O × Nav)) (tmp : Tab S O) :
    (do
      let tmp ← (List.range t.bucketCount).foldlM (fun tmp b => t.moveBucket g ins tmp b) tmp
      t.moveOverflow g ins (g.ov.size t.ovf + 1) (g.ov.firstPosition t.ovf) tmp : Res (Tab S O)) =
    (ents (g.hash P.kw) t.tb c o).foldlM (insStep ins) tmp := by
  have e1 : (List.range t.bucketCount).foldlM (fun tmp b => t.moveBucket g ins tmp b) tmp =
      (stored (g.hash P.kw) t.tb c).foldlM (insStep ins) tmp := by
    rw [stored, foldlM_flatMap, h.bc L]
    apply foldlM_congr_mem
    intro tmp b hb
    exact h.moveBucket L ins tmp (by simpa using hb)
  rw [e1, ents, List.foldlM_append]
  cases (stored (g.hash P.kw) t.tb c).foldlM (insStep ins) tmp with
  | error x => rfl
  | ok tmp =>
    simp only [ok_bind]
    apply walk_move
    · exact L.ovf.walk _ _ _ _ h.orep
    · rw [h.osize L]; omega
    · intro e he
      exact ⟨L.ovf.key _ _ _ _ _ h.orep he, L.ovf.read _ _ _ _ _ h.orep he⟩

theorem ents_nil (H : HashMapping) (tb : Nat) : ents H tb (fun _ => []) [] = [] := by
  simp [ents, stored, bEnts, List.flatMap_eq_nil_iff]

/-- `reserve` on a table without buckets -/
theorem reserveEmpty_ok (L : Laws g P) {t : Tab S O} {n r m : Nat} {full : Nat → Bool} (h1 : t.kw = P.kw)
    (h2 : t.vw = P.vw) (h3 : 1 ≤ t.bpg) (h4 : t.bpg ≤ 64) (h5 : t.elems = 0) (h6 : P.RepO t.ovf m [] full)
    (hst : g.stale t.store = false) (hr : reserveBits n = .ok r) (hlo : P.lo ≤ r) (hhi : r ≤ P.hi) :
    ∃ t' full', t.reserveEmpty g n = .ok t' ∧ Live g P t' (fun _ => []) [] full' ∧ t'.tb = r ∧ t'.bpg = t.bpg := by
  obtain ⟨s, hs1, hs2⟩ := L.store.alloc (Tab.dim g { t with tb := r })
  obtain ⟨o', full', ho1, ho2⟩ := L.ovf.resize _ _ (2 ^ r) _ h6 (Nat.pow_le_pow_right (by decide) (Nat.le_of_lt_succ (Nat.lt_of_le_of_lt hhi L.hi_lt)))
  have hm := L.mapping r hlo hhi
  have hgd : GoodDim P.W (Tab.dim g { t with tb := r }) := {
    tb_pos := Nat.le_trans L.lo_pos hlo
    tb_lt := Nat.lt_of_le_of_lt hhi L.hi_lt
    qw_pos := by
      show 1 ≤ (g.hash t.kw).remainderWidth r
      rw [h1]; exact hm.width_pos
    qw_le := by
      show (g.hash t.kw).remainderWidth r ≤ t.kw
      rw [h1]; exact (L.qw_le _ hlo hhi).1
    qw_le_W := by
      show (g.hash t.kw).remainderWidth r ≤ P.W
      rw [h1]; exact (L.qw_le _ hlo hhi).2
    kw_le := by show t.kw ≤ 64; rw [h1]; exact L.kw_le
    vw_pos := by show 1 ≤ t.vw; rw [h2]; exact L.vw_pos
    vw_le := by show t.vw ≤ 64; rw [h2]; exact L.vw_le
    bpg_pos := h3
    bpg_le := h4 }
  refine ⟨{ t with tb := r, store := s, ovf := o' }, full', ?_, ?_, rfl, rfl⟩
  · simp only [Tab.reserveEmpty, hr, ddcheck_ok hst, ok_bind, hs1, ho1, pure_eq_ok]
  · exact {
      tkw := h1, tvw := h2, bpg_pos := h3, bpg_le := h4, lo := hlo, hi := hhi
      rep := hs2 hgd ⟨by show (g.hash t.kw).remainderWidth r = (g.hash P.kw).remainderWidth r; rw [h1], h1, h2, hlo, hhi⟩
      orep := ho2
      cok := COK.nil
      ofull := by simp
      vals := by simp
      ovals := by simp
      elems := by rw [ents_nil]; exact h5 }

/-! ## a table that is large enough is never enlarged -/

theorem sum_bound {M cl b : Nat} (f : Nat → Nat) : ∀ bs : List Nat, b ∈ bs → (∀ x ∈ bs, cl * f x ≤ M) →
    cl * (f b + 1) ≤ M → cl * (bs.map f).sum + cl ≤ bs.length * M := by
  have aux : ∀ bs : List Nat, (∀ x ∈ bs, cl * f x ≤ M) → cl * (bs.map f).sum ≤ bs.length * M := by
    intro bs
    induction bs with
    | nil => simp
    | cons a bs ih =>
      intro h
      have h1 := h a (by simp)
      have h2 := ih (fun x hx => h x (by simp [hx]))
      simp only [List.map_cons, List.sum_cons, List.length_cons, Nat.mul_add, Nat.add_mul, Nat.one_mul]
      omega
  intro bs
  induction bs with
  | nil => simp
  | cons a bs ih =>
    intro hb h h2
    simp only [List.map_cons, List.sum_cons, List.length_cons, Nat.mul_add, Nat.add_mul, Nat.one_mul]
    rcases List.mem_cons.mp hb with rfl | hb
    · have := aux bs (fun x hx => h x (by simp [hx]))
      rw [Nat.mul_add] at h2
      omega
    · have := ih hb (fun x hx => h x (by simp [hx])) h2
      have := h a (by simp)
      omega

theorem Live.bucket_room (L : Laws g P) {t : Tab S O} {c : Cont} {o : List (Nat × Nat × Nat)} {full : Nat → Bool}
    (h : Live g P t c o full) (hg : P.grow ≤ t.tb) {b : Nat} (hb : b < 2 ^ t.tb) (ks : List Nat)
    (hks : (ks ++ (c b).map (fun e => invKey (g.hash P.kw) t.tb b e.1)).Nodup)
    (hk : ∀ k ∈ ks, k < 2 ^ P.kw ∧ ∃ q, (g.hash P.kw).map k t.tb = .ok (q, b)) :
    P.cl * (ks.length + (c b).length) ≤ P.maxE := by
  have := L.room t.tb h.lo hg h.hi b _ hks (by
    intro k hk'
    rcases List.mem_append.mp hk' with h1 | h1
    · exact hk k h1
    · obtain ⟨e, he, rfl⟩ := List.mem_map.mp h1
      obtain ⟨k, hk, hm⟩ := h.cok.src b hb e he
      rw [(invKey_of_map (h.map_ok L) hk hm).1]
      exact ⟨hk, _, hm⟩)
  simpa using this

theorem Live.bucket_keys (L : Laws g P) {t : Tab S O} {c : Cont} {o : List (Nat × Nat × Nat)} {full : Nat → Bool}
    (h : Live g P t c o full) {b : Nat} (hb : b < 2 ^ t.tb) :
    ((c b).map (fun e => invKey (g.hash P.kw) t.tb b e.1)).Nodup := by
  have := ents_nodup (h.map_ok L) h.cok
  have hp := ((ents_split (H := g.hash P.kw) c o hb).map Prod.fst).nodup_iff.mp this
  rw [List.map_append] at hp
  have := (List.nodup_append.mp hp).1
  simpa [bEnts, Function.comp_def] using this

theorem Live.not_full (L : Laws g P) {t : Tab S O} {c : Cont} {o : List (Nat × Nat × Nat)} {full : Nat → Bool}
    (h : Live g P t c o full) (hg : P.grow ≤ t.tb) {k q b : Nat} (hk : k < 2 ^ P.kw)
    (hm : (g.hash P.kw).map k t.tb = .ok (q, b)) (hn : q ∉ (c b).map Prod.fst) :
    g.ops.full t.store (t.dim g) b = .ok false := by
  have hb := (invKey_of_map (h.map_ok L) hk hm).2.1
  obtain ⟨r, hr, hfull⟩ := L.store.full _ _ _ _ (h.good L) h.rep hb
  cases r with
  | false => exact hr
  | true =>
    exfalso
    obtain ⟨bs, _, hbm, hlen, hbs, hsum⟩ := hfull rfl
    have h1 : ∀ x ∈ bs, P.cl * (c x).length ≤ P.maxE := by
      intro x hx
      have := h.bucket_room L hg (hbs x hx) [] (by simpa using h.bucket_keys L (hbs x hx)) (by simp)
      simpa using this
    have h2 : P.cl * ((c b).length + 1) ≤ P.maxE := by
      have := h.bucket_room L hg hb [k] (by
        rw [List.singleton_append, List.nodup_cons]
        refine ⟨?_, h.bucket_keys L hb⟩
        intro hmem
        obtain ⟨e, he, heq⟩ := List.mem_map.mp hmem
        obtain ⟨k', hk', hm'⟩ := h.cok.src b hb e he
        rw [(invKey_of_map (h.map_ok L) hk' hm').1] at heq
        subst heq
        rw [hm] at hm'
        have e1 : q = e.1 := by
          have := Except.ok.inj hm'
          exact congrArg Prod.fst this
        exact hn (List.mem_map.mpr ⟨e, he, e1.symm⟩)) (by
        intro k' hk'
        simp only [List.mem_singleton] at hk'
        subst hk'; exact ⟨hk, q, hm⟩)
      simpa [Nat.add_comm] using this
    have := sum_bound (M := P.maxE) (fun x => (c x).length) bs hbm h1 h2
    have hcl : 1 ≤ P.cl := Nat.le_trans (List.length_pos_of_mem hbm) hlen
    have hle : bs.length * P.maxE ≤ P.cl * P.maxE := Nat.mul_le_mul_right _ hlen
    have hle2 : P.cl * P.maxE ≤ P.cl * (bs.map (fun x => (c x).length)).sum := Nat.mul_le_mul_left _ hsum
    omega

/-! ## insertion -/

/-- result of `find_or_insert` on a table that holds `l` -/
def InsRes (g : Cfg S O) (P : Par S O) (t : Tab S O) (l : List (Nat × Nat)) (k v : Nat) (t' : Tab S O) (n : Nav) :
    Prop :=
  ∃ x l' c o full, ((k ∈ l.map Prod.fst ∧ l' = l ∧ t' = t) ∨
      (k ∉ l.map Prod.fst ∧ x = P.norm P.vw v ∧ l' = (k, x) :: l)) ∧
    Live g P t' c o full ∧ l'.Perm (ents (g.hash P.kw) t'.tb c o) ∧ Loc g P t' c o n k x

/-- the recursion bound suffices -/
def FuelOK (P : Par S O) (f : Nat) (t : Tab S O) : Prop := P.grow < f ∨ (0 < t.tb ∧ P.grow - t.tb < f)

theorem InsRes.inv {t t' : Tab S O} {l : List (Nat × Nat)} {k v : Nat} {n : Nav} (h : InsRes g P t l k v t' n)
    (hn : k ∉ l.map Prod.fst) : Inv g P t' ((k, P.norm P.vw v) :: l) := by
  obtain ⟨x, l', c, o, full, hc, hl, hp, _⟩ := h
  rcases hc with ⟨h1, _⟩ | ⟨_, rfl, rfl⟩
  · exact absurd h1 hn
  · exact .inr ⟨c, o, full, hl, hp⟩

theorem insAll (L : Laws g P) {f : Nat} (ins : Tab S O → Nat → Nat → Res (Tab S O × Nav))
    (ih : ∀ t l k v, Inv g P t l → k < 2 ^ P.kw → P.normO v = P.norm P.vw v → FuelOK P f t →
      ∃ t' n, ins t k v = .ok (t', n) ∧ InsRes g P t l k v t' n ∧ t.tb ≤ t'.tb ∧
        t'.tb ≤ max (max t.tb P.ini) P.grow) :
    ∀ (xs : List (Nat × Nat)) (t : Tab S O) (l : List (Nat × Nat)), Inv g P t l → FuelOK P f t →
    (∀ e ∈ xs, e.1 < 2 ^ P.kw ∧ P.norm P.vw e.2 = e.2) → ((l ++ xs).map Prod.fst).Nodup →
    ∃ t', xs.foldlM (insStep ins) t = .ok t' ∧ Inv g P t' (l ++ xs) ∧ t.tb ≤ t'.tb ∧
      t'.tb ≤ max (max t.tb P.ini) P.grow := by
  intro xs
  induction xs with
  | nil => intro t l h _ _ _; exact ⟨t, rfl, by simpa using h, Nat.le_refl _, by omega⟩
  | cons e xs ihx =>
    intro t l h hf hx hnd
    obtain ⟨hk, hv⟩ := hx e (by simp)
    have hvo : P.normO e.2 = P.norm P.vw e.2 := by
      have := L.normO_norm e.2
      rw [hv] at this
      rw [this, hv]
    have hnm : e.1 ∉ l.map Prod.fst := by
      rw [List.map_append, List.map_cons] at hnd
      intro hmem
      have h3 := (List.nodup_append.mp hnd).2.2
      exact h3 _ hmem _ (by simp) rfl
    obtain ⟨t1, n, h1, h2, h3, h4⟩ := ih t l e.1 e.2 h hk hvo hf
    have hinv := h2.inv hnm
    rw [hv] at hinv
    have hp : ((e :: l) ++ xs).Perm (l ++ e :: xs) := by
      rw [List.cons_append]; exact List.perm_middle.symm
    have hf1 : FuelOK P f t1 := by
      rcases hf with hf | ⟨h5, h6⟩
      · exact .inl hf
      · exact .inr ⟨by omega, by omega⟩
    obtain ⟨t2, g1, g2, g3, g4⟩ := ihx t1 (e :: l) hinv hf1 (fun x hx' => hx x (by simp [hx']))
      ((hp.map Prod.fst).nodup_iff.mpr hnd)
    refine ⟨t2, ?_, g2.perm hp.symm, by omega, by omega⟩
    rw [List.foldlM_cons]
    simp only [insStep, h1, ok_bind, pure_eq_ok]
    exact g1

theorem bind_eq_ok {α β : Type} {x : Res α} {k : α → Res β} {r : β} (h : x >>= k = .ok r) : ∃ a, x = .ok a ∧ k a = .ok r := by
  cases x with
  | error e => cases h
  | ok a => exact ⟨a, rfl, h⟩

theorem Inv.kw_eq {t : Tab S O} {l : List (Nat × Nat)} (h : Inv g P t l) : t.kw = P.kw := by
  rcases h with ⟨h, _⟩ | ⟨c, o, full, hl, hp⟩
  · exact h
  · exact hl.tkw

/-- a key has at least two bits, since `1ULL << 255` is undefined -/
theorem Laws.kw_gt (L : Laws g P) : 1 < P.kw := by
  rcases Nat.lt_or_ge 1 P.kw with h | h
  · exact h
  · exfalso
    have h1 := L.init.1
    rw [show min (P.kw - 1) g.initBuckets = 0 by omega] at h1
    cases h1

theorem tally_fold {s : S} {d : Dim} {f : Nat → Nat} : ∀ {bs : List Nat} {a : Nat}, (∀ b ∈ bs, g.ops.size s d b = .ok (f b)) →
    bs.foldlM (fun a b => do
      let n ← g.ops.size s d b
      return a + n) a = (.ok (a + (bs.map f).sum) : Res Nat) := by
  intro bs
  induction bs with
  | nil => intro a _; rfl
  | cons b bs ih =>
    intro a h
    rw [List.foldlM_cons]
    simp only [h b (by simp), ok_bind, pure_eq_ok]
    refine Eq.trans (ih (fun b hb => h b (by simp [hb]))) ?_
    simp [Nat.add_assoc]

/-- the assertion that `reserve` makes about the number of elements holds -/
theorem Live.checkTally (L : Laws g P) {t : Tab S O} {c : Cont} {o : List (Nat × Nat × Nat)} {full : Nat → Bool} (h : Live g P t c o full) :
    t.checkTally g = .ok () := by
  unfold Tab.checkTally
  split
  · rw [tally_fold (f := fun b => (c b).length)]
    · rw [ok_bind, ddcheck_ok]
      rw [h.elems, h.bc L, h.osize L]
      simp only [ents, bEnts, stored, List.length_append, List.length_map, List.length_flatMap, Nat.zero_add]
    · intro b hb
      rw [h.bc L] at hb
      exact L.store.size _ _ _ _ (h.good L) h.rep (List.mem_range.mp hb)
  · rfl

/-- rehashing into a table with `2^r` buckets, possibly for keys of another width (`P'`) -/
theorem reserveWith_ok (L : Laws g P) {P' : Par S O} (L' : Laws g P') {f : Nat}
    (ins : Tab S O → Nat → Nat → Res (Tab S O × Nav))
    (ih : ∀ t l k v, Inv g P' t l → k < 2 ^ P'.kw → P'.normO v = P'.norm P'.vw v → FuelOK P' f t →
      ∃ t' n, ins t k v = .ok (t', n) ∧ InsRes g P' t l k v t' n ∧ t.tb ≤ t'.tb ∧
        t'.tb ≤ max (max t.tb P'.ini) P'.grow)
    {t : Tab S O} {c : Cont} {o : List (Nat × Nat × Nat)} {full : Nat → Bool} (h : Live g P t c o full)
    {n r nkw : Nat} (hr : reserveBits n = .ok r) (hlo : P'.lo ≤ r) (hhi : r ≤ P'.hi)
    (hkw : (if nkw = 0 then P.kw else nkw) = P'.kw) (hvw : P.vw = P'.vw) (hf : P'.grow - r < f)
    (hx : ∀ e ∈ ents (g.hash P.kw) t.tb c o, e.1 < 2 ^ P'.kw ∧ P'.norm P'.vw e.2 = e.2) :
    ∃ t', t.reserveWith g ins n nkw = .ok t' ∧ Inv g P' t' (ents (g.hash P.kw) t.tb c o) ∧ r ≤ t'.tb ∧
      t'.tb ≤ max (max r P'.ini) P'.grow := by
  have htb := h.tb_pos L
  have hrlt : r < 64 := Nat.lt_of_le_of_lt hhi L'.hi_lt
  obtain ⟨full0, ho0⟩ := L'.ovf.new P'.kw P'.vw
  obtain ⟨t1, full1, h1, h2, h3, _⟩ := reserveEmpty_ok L'
    (t := { Tab.new g P'.kw P'.vw with bpg := g.rehashBpg }) (n := 2 ^ r) (r := r) rfl rfl L'.rbpg_pos L'.rbpg_le rfl
    ho0 L'.fresh (reserveBits_pow hrlt) hlo hhi
  have hinv1 : Inv g P' t1 [] := .inr ⟨_, _, _, h2, by rw [ents_nil]⟩
  obtain ⟨t2, g1, g2, g3, g4⟩ := insAll L' ins ih (ents (g.hash P.kw) t.tb c o) t1 [] hinv1
    (.inr ⟨by have := L'.lo_pos; omega, by rw [h3]; exact hf⟩) hx (by simpa using ents_nodup (h.map_ok L) h.cok)
  refine ⟨t2, ?_, by simpa using g2, by omega, by omega⟩
  unfold Tab.reserveWith
  have e : (if nkw = 0 then t.kw else nkw) = P'.kw := by rw [h.tkw]; exact hkw
  rw [hr, ok_bind, if_neg (by omega), e, h.tvw, hvw]
  simp only [h1, ok_bind]
  have hr2 := h.rehash L ins t1
  rw [g1] at hr2
  obtain ⟨t3, e1, e2⟩ := bind_eq_ok hr2
  rw [e1, ok_bind, h.checkTally L, ok_bind, e2, ok_bind, ddcheck_ok (by rw [g2.size, h.elems]; rfl), ok_bind, pure_eq_ok]

/-- **`find_or_insert`** -/
theorem ins_ok (L : Laws g P) : ∀ (f : Nat) (t : Tab S O) (l : List (Nat × Nat)) (k v : Nat), Inv g P t l →
    k < 2 ^ P.kw → P.normO v = P.norm P.vw v → FuelOK P f t →
    ∃ t' n, Tab.findOrInsert g f t k v = .ok (t', n) ∧
      (∃ x l' c o full, ((k ∈ l.map Prod.fst ∧ l' = l ∧ t' = t) ∨
        (k ∉ l.map Prod.fst ∧ x = P.norm P.vw v ∧ l' = (k, x) :: l)) ∧
      Live g P t' c o full ∧ l'.Perm (ents (g.hash P.kw) t'.tb c o) ∧ Loc g P t' c o n k x) ∧ t.tb ≤ t'.tb ∧
      t'.tb ≤ max (max t.tb P.ini) P.grow := by
  intro f
  induction f with
  | zero => intro t l k v _ _ _ hf; rcases hf with hf | ⟨_, hf⟩ <;> omega
  | succ f ih =>
    intro t l k v h hk hv hf
    -- the table after the first `if`
    obtain ⟨t1, c, o, full, ht1, hl, hp, htt, hle, hle2, hf1⟩ : ∃ t1 c o full,
        (if t.tb = 0 then t.reserveEmpty g (min (t.kw - 1) g.initBuckets) else .ok t : Res (Tab S O)) = .ok t1 ∧
        Live g P t1 c o full ∧ l.Perm (ents (g.hash P.kw) t1.tb c o) ∧ (k ∈ l.map Prod.fst → t1 = t) ∧ t.tb ≤ t1.tb ∧
        t1.tb ≤ max t.tb P.ini ∧ P.grow - t1.tb < f + 1 := by
      rcases h with ⟨h1, h2, h3, h4, h5, h6, rfl, hst, n, full, h7⟩ | ⟨c, o, full, hl, hp⟩
      · obtain ⟨hi1, hi2, hi3⟩ := L.init
        rw [← h1] at hi1
        obtain ⟨t1, full1, g1, g2, g3, _⟩ := reserveEmpty_ok L h1 h2 h3 h4 h6 h7 hst hi1 hi2 hi3
        refine ⟨t1, _, _, full1, by rw [if_pos h5]; exact g1, g2, by rw [ents_nil], by simp, by omega, by omega, ?_⟩
        rcases hf with hf | ⟨hf, _⟩ <;> omega
      · have := hl.tb_pos L
        refine ⟨t, c, o, full, by rw [if_neg (by omega)], hl, hp, fun _ => rfl, Nat.le_refl _, by omega, ?_⟩
        rcases hf with hf | ⟨_, hf⟩ <;> omega
    have hkeys : ∀ x, x ∈ l.map Prod.fst ↔ x ∈ (ents (g.hash P.kw) t1.tb c o).map Prod.fst :=
      fun x => (hp.map Prod.fst).mem_iff
    obtain ⟨q, b, hm, hb⟩ := hl.mapk L hk
    obtain ⟨pos, hpos, hcase⟩ := hl.locate L hk hm
    have hq := (invKey_of_map (hl.map_ok L) hk hm).2.2.1
    have hcons := L.ovf.consult _ _ _ _ b hl.orep hb
    unfold Tab.findOrInsert
    have hkw1 : 1 < t.kw := by rw [h.kw_eq]; exact L.kw_gt
    simp only [ddcheck_ok hkw1, ht1, ok_bind, hl.hash, hm, hl.checkMap L hk hm, hpos]
    -- found in the bucket
    rcases hcase with ⟨rfl, hq'⟩ | ⟨hne, x, hloc⟩
    rotate_left
    · have hin : k ∈ l.map Prod.fst := (hkeys k).mpr (List.mem_map.mpr ⟨_, (hl.loc_mem L hloc).1, rfl⟩)
      refine ⟨t1, _, by rw [if_pos hne]; rfl, ⟨x, l, c, o, full, .inl ⟨hin, rfl, htt hin⟩, hl, hp, hloc⟩, hle, by omega⟩
    simp only [ne_eq, not_true_eq_false, if_false, hcons, ok_bind]
    -- consult the overflow table
    obtain ⟨p, hpp, hpc⟩ := hl.ofind L k
    have hfirst : ∃ p', (if full b = true then g.ov.find t1.ovf k else .ok NPOS : Res Nat) = .ok p' ∧
        ((p' = NPOS ∧ ∀ e ∈ o, e.2.1 ≠ k) ∨ (p' ≠ NPOS ∧ ∃ v, (p', k, v) ∈ o)) := by
      by_cases hs : full b = true
      · rw [if_pos hs]; exact ⟨p, hpp, hpc⟩
      · rw [if_neg hs]
        refine ⟨NPOS, rfl, .inl ⟨rfl, ?_⟩⟩
        rintro e he rfl
        exact hs (hl.ofull e he q b hm)
    obtain ⟨p', hp', hcase'⟩ := hfirst
    rw [hp']
    simp only [ok_bind]
    rcases hcase' with ⟨rfl, ho⟩ | ⟨hne, x, hx⟩
    rotate_left
    · have hloc : Loc g P t1 c o ⟨t1.bucketCount, p'⟩ k x := .inr ⟨p', by rw [hl.bc L], hx⟩
      have hin : k ∈ l.map Prod.fst := (hkeys k).mpr (List.mem_map.mpr ⟨_, (hl.loc_mem L hloc).1, rfl⟩)
      refine ⟨t1, _, by rw [if_pos hne]; rfl, ⟨x, l, c, o, full, .inl ⟨hin, rfl, htt hin⟩, hl, hp, hloc⟩, hle, by omega⟩
    simp only [not_true_eq_false, if_false]
    have hnm : k ∉ l.map Prod.fst := by
      rw [hkeys]; exact (hl.not_mem L hk hm).mpr ⟨hq', ho⟩
    obtain ⟨r, hr, _⟩ := L.store.full _ _ _ _ (hl.good L) hl.rep hb
    rw [hr]
    simp only [ok_bind]
    cases r with
    | false =>
      -- append to the bucket
      have hqd : q < 2 ^ (t1.dim g).qw := by
        show q < 2 ^ (t1.hash g).remainderWidth t1.tb
        rw [hl.hash]; exact hq
      obtain ⟨s', hs1, hs2⟩ := L.store.push _ _ _ _ q v (hl.good L) hl.rep hb hqd hr (by rw [show (t1.dim g).vw = P.vw from hl.tvw]; exact hv)
      have hdv : (t1.dim g).vw = P.vw := hl.tvw
      rw [hdv] at hs2
      have hsz := L.store.size _ _ _ _ (hl.good L) hl.rep hb
      have hpush := ents_push (H := g.hash P.kw) (k := k) (v := P.norm P.vw v) c o hb
        (invKey_of_map (hl.map_ok L) hk hm).1
      simp only [Bool.false_eq_true, if_false, hsz, ok_bind, hs1, pure_eq_ok]
      refine ⟨_, _, rfl, ⟨P.norm P.vw v, (k, P.norm P.vw v) :: l,
        upd c b (c b ++ [(q, P.norm P.vw v)]), o, full, .inr ⟨hnm, rfl, rfl⟩, ?_, ?_, ?_⟩, hle, ?_⟩
      · exact {
          tkw := hl.tkw, tvw := hl.tvw, bpg_pos := hl.bpg_pos, bpg_le := hl.bpg_le, lo := hl.lo, hi := hl.hi
          rep := hs2
          orep := hl.orep
          cok := hl.cok.push hk hm (hl.map_ok L) hq' ho
          ofull := hl.ofull
          vals := by
            intro b' hb' e he
            by_cases hbb : b' = b
            · subst hbb
              rw [upd_same] at he
              rcases List.mem_append.mp he with he | he
              · exact hl.vals b' hb' e he
              · simp only [List.mem_singleton] at he
                subst he
                exact L.norm_idem v
            · rw [upd_other _ _ hbb] at he; exact hl.vals b' hb' e he
          ovals := hl.ovals
          elems := by
            show t1.elems + 1 = _
            rw [hpush.length_eq, hl.elems]; simp }
      · exact (hp.cons _).trans hpush.symm
      · exact .inl ⟨q, b, (c b).length, by simp, rfl, hb, hm, by simp, hk⟩
      · show t1.tb ≤ _; omega
    | true =>
      have hgrow : t1.tb < P.grow := by
        rcases Nat.lt_or_ge t1.tb P.grow with h | h
        · exact h
        · rw [hl.not_full L h hk hm hq'] at hr; exact absurd hr (by simp)
      -- try the overflow table
      have hov : ∃ o1 p1, (if g.ov.size t1.ovf < g.ov.capacity t1.ovf then g.ov.insert t1.ovf b k v
          else .ok (t1.ovf, NPOS) : Res (O × Nat)) = .ok (o1, p1) ∧
          ((p1 = NPOS ∧ ∃ full', Live g P { t1 with ovf := o1 } c o full') ∨
           (p1 ≠ NPOS ∧ ∃ full' o', o'.Perm ((p1, k, P.norm P.vw v) :: o) ∧
              Live g P { t1 with ovf := o1, elems := t1.elems + 1 } c o' full')) := by
        by_cases hcap : g.ov.size t1.ovf < g.ov.capacity t1.ovf
        · rw [if_pos hcap]
          rcases L.ovf.insert _ _ _ _ b k v hl.orep hb hcap ho hv with
            ⟨o1, full1, g1, g2, g3⟩ | ⟨o1, full1, p1, o', g1, g2, g3, g4, g5, g6⟩
          · exact ⟨o1, NPOS, g1, .inl ⟨rfl, full1, { hl with
              orep := g2, ofull := fun e he q b hm => g3 _ (hl.ofull e he q b hm) }⟩⟩
          · refine ⟨o1, p1, g1, .inr ⟨g2, full1, o', by rw [← hv]; exact g3, ?_⟩⟩
            rw [hv] at g3
            exact {
              tkw := hl.tkw, tvw := hl.tvw, bpg_pos := hl.bpg_pos, bpg_le := hl.bpg_le, lo := hl.lo, hi := hl.hi
              rep := hl.rep
              orep := g4
              cok := hl.cok.ovf_insert g3 hk hm hq' ho
              ofull := by
                intro e he q2 b2 hm2
                rcases List.mem_cons.mp (g3.mem_iff.mp he) with rfl | he
                · have hm2 : (g.hash P.kw).map k t1.tb = .ok (q2, b2) := hm2
                  rw [hm] at hm2
                  have := congrArg Prod.snd (Except.ok.inj hm2)
                  have : b = b2 := this
                  rw [← this]; exact g5
                · exact g6 _ (hl.ofull e he q2 b2 hm2)
              vals := hl.vals
              ovals := by
                intro e he
                rcases List.mem_cons.mp (g3.mem_iff.mp he) with rfl | he
                · exact L.norm_idem v
                · exact hl.ovals e he
              elems := by
                show t1.elems + 1 = _
                have h1 := hl.elems
                have h2 := (g3.map (fun e => e.2)).length_eq
                simp only [ents, List.length_append, List.length_map, List.length_cons] at h1 h2 ⊢
                show _ = (stored (g.hash P.kw) t1.tb c).length + o'.length
                omega }
        · rw [if_neg hcap]
          exact ⟨t1.ovf, NPOS, rfl, .inl ⟨rfl, full, hl⟩⟩
      obtain ⟨o1, p1, ho1, hcase1⟩ := hov
      simp only [if_true, ho1, ok_bind]
      rcases hcase1 with ⟨rfl, full', hl'⟩ | ⟨hne, full', o', hperm, hl'⟩
      · -- enlarge
        simp only [not_true_eq_false, if_false]
        have hsh : shl64 1 (t1.tb + 1) = .ok (2 ^ (t1.tb + 1)) := by
          have hlt : t1.tb + 1 < 64 := by have := L.grow_le; have := L.hi_lt; omega
          unfold shl64
          rw [if_pos hlt, Nat.shiftLeft_eq, Nat.one_mul]
          exact congrArg _ (Nat.mod_eq_of_lt (Nat.pow_lt_pow_right (by omega) hlt))
        rw [hsh]
        simp only [ok_bind]
        have hinv' : Inv g P { t1 with ovf := o1 } l := .inr ⟨c, o, full', hl', hp⟩
        obtain ⟨t2, g1, g2, g3, g4⟩ := reserveWith_ok L L (Tab.findOrInsert g f) ih hl' (n := 2 ^ (t1.tb + 1))
          (r := t1.tb + 1) (nkw := 0) (reserveBits_pow (by have := L.grow_le; have := L.hi_lt; omega))
          (by have := hl.lo; omega) (by have := L.grow_le; omega) (by simp) rfl (by omega)
          (fun e he => ⟨hinv'.key_lt L (hp.mem_iff.mpr he), hinv'.val_norm (hp.mem_iff.mpr he)⟩)
        have g1' : Tab.reserveWith g (Tab.findOrInsert g f)
          { kw := t1.kw, vw := t1.vw, tb := t1.tb, elems := t1.elems, bpg := t1.bpg, store := t1.store, ovf := o1 }
          (2 ^ (t1.tb + 1)) 0 = .ok t2 := g1
        simp only [g1', ok_bind]
        have g2' : Inv g P t2 l := g2.perm hp
        obtain ⟨t3, n3, k1, ⟨x, l', c3, o3, full3, k2, k3, k4, k5⟩, k6, k7⟩ := ih t2 l k v g2' hk hv
          (.inr ⟨by omega, by omega⟩)
        rcases k2 with ⟨k2, _⟩ | ⟨k2, k8, k9⟩
        · exact absurd k2 hnm
        · exact ⟨t3, n3, k1, ⟨x, l', c3, o3, full3, .inr ⟨k2, k8, k9⟩, k3, k4, k5⟩, by omega, by omega⟩
      · simp only [hne, not_false_eq_true, if_true, pure_eq_ok]
        refine ⟨_, _, rfl, ⟨P.norm P.vw v, (k, P.norm P.vw v) :: l, c, o', full', .inr ⟨hnm, rfl, rfl⟩, hl', ?_, ?_⟩, hle, ?_⟩
        · refine (hp.cons _).trans ?_
          show List.Perm _ (ents (g.hash P.kw) t1.tb c o')
          unfold ents
          have h2 := (hperm.map (fun e => e.2)).append_left (stored (g.hash P.kw) t1.tb c)
          refine List.Perm.trans ?_ h2.symm
          rw [List.map_cons]
          exact List.perm_middle.symm
        · refine .inr ⟨p1, ?_, hperm.mem_iff.mpr (by simp)⟩
          show Nav.mk (Tab.bucketCount { t1 with ovf := o1 }) p1 = Nav.mk (2 ^ t1.tb) p1
          have := hl.bc L
          unfold Tab.bucketCount at this ⊢
          simp only at this ⊢
          rw [this]
        · show t1.tb ≤ _; omega

theorem Inv.insert (L : Laws g P) (hg : P.grow < 65) {t : Tab S O} {l : List (Nat × Nat)} (h : Inv g P t l) {k v : Nat}
    (hk : k < 2 ^ P.kw) (hv : P.normO v = P.norm P.vw v) :
    ∃ t' n, t.insert g k v = .ok (t', n) ∧ InsRes g P t l k v t' n ∧ t.tb ≤ t'.tb ∧
      t'.tb ≤ max (max t.tb P.ini) P.grow :=
  ins_ok L depth t l k v h hk hv (.inl hg)

/-- `reserve` as called by a user -/
theorem Inv.reserve (L : Laws g P) (hg : P.grow < 65) {t : Tab S O} {l : List (Nat × Nat)} (h : Inv g P t l)
    {n r : Nat} (hr : reserveBits n = .ok r) (hlo : P.lo ≤ r) (hhi : r ≤ P.hi) :
    ∃ t', t.reserve g n = .ok t' ∧ Inv g P t' l ∧ r ≤ t'.tb ∧ t'.tb ≤ max (max r P.ini) P.grow := by
  have h0 := h
  rcases h with ⟨h1, h2, h3, h4, h5, h6, rfl, hst, m, full, h7⟩ | ⟨c, o, full, hl, hp⟩
  · obtain ⟨t1, full1, g1, g2, g3, _⟩ := reserveEmpty_ok L h1 h2 h3 h4 h6 h7 hst hr hlo hhi
    refine ⟨t1, ?_, .inr ⟨_, _, _, g2, by rw [ents_nil]⟩, by omega, by omega⟩
    unfold Tab.reserve Tab.reserveWith
    rw [hr, ok_bind, if_pos h5]
    exact g1
  · obtain ⟨t2, g1, g2, g3, g4⟩ := reserveWith_ok L L (Tab.findOrInsert g depth) (ins_ok L depth) hl
      hr (nkw := 0) hlo hhi (by simp) rfl (by show _ < 65; omega)
      (fun e he => ⟨h0.key_lt L (hp.mem_iff.mpr he), h0.val_norm (hp.mem_iff.mpr he)⟩)
    exact ⟨t2, g1, g2.perm hp, g3, g4⟩

end SC
