import Verif.Table.Observe
import Verif.Table.Sweep
/-!
# Navigators that outlive calls

A navigator (iterator.hpp:14-17) consists of the number of a bucket and a position in it.  It stays on its element as long as the
bucket count is the same and nothing in front of it in its bucket is erased.
-/
namespace SC
variable {S O : Type}

/-- calls that remove nothing and never reduce the number of buckets -/
def Growing : MapOp → Prop
  | .erase _ => False
  | .clear => False
  | .reserve _ => False
  | _ => True

/-- `n` is the place of key `k`: `find(k)` gives `n`, and `n` is not `end()` -/
def Placed (g : Cfg S O) (t : Tab S O) (k : Nat) (n : Nav) : Prop :=
  t.find g k = .ok n ∧ t.navEq g n Nav.end_ = .ok false

/-- where a navigator has to be when the element at `gone` is removed -/
def Nav.without (n gone : Nav) : Nav :=
  if gone.bucket = n.bucket ∧ gone.pos < n.pos then ⟨n.bucket, n.pos - 1⟩ else n

/-- How long a navigator can be used. -/
structure StableSpec (g : Cfg S O) (kw : Nat) (valid : MapOp → Prop) (t : Tab S O) : Prop where
  /-- through the place of a key, the key and its value are read -/
  reads : ∀ k n, k < 2 ^ kw → Placed g t k n → t.keyAt g n = .ok k ∧ ∃ v, t.lookup g k = .ok (some (k, v)) ∧ t.valueAt g n = .ok v
  /-- any number of lookups, insertions, assignments and `shrink_to_fit()`, as long as the number of buckets is the same in the end -/
  calls : ∀ ops t' as k n, (∀ op ∈ ops, valid op ∧ Growing op) → t.run g ops = .ok (t', as) → t'.bucketCount = t.bucketCount →
    k < 2 ^ kw → Placed g t k n → Placed g t' k n
  /-- `reserve(x)` where `x` is rounded up to the present number of buckets, if it does not lead to more buckets -/
  reserve : ∀ x t' k n, x ≤ t.bucketCount → t.bucketCount < 2 * x → t.reserve g x = .ok t' → t'.bucketCount = t.bucketCount →
    k < 2 ^ kw → Placed g t k n → Placed g t' k n
  /-- erasing another key: only what is behind it in the same bucket moves, by one position -/
  erase : ∀ k' t' r gone k n, k' < 2 ^ kw → t.erase g k' = .ok (t', r) → t.find g k' = .ok gone → k < 2 ^ kw → k ≠ k' →
    Placed g t k n → Placed g t' k (n.without gone)

variable {g : Cfg S O} {P : Par S O}

/-- the quotients at the places of `c` are still there in `c'` -/
def KeepQ (tb : Nat) (c c' : Cont) : Prop :=
  ∀ b < 2 ^ tb, ∀ i (h : i < (c b).length), ∃ h' : i < (c' b).length, (c' b)[i].1 = (c b)[i].1

theorem KeepQ.refl (tb : Nat) (c : Cont) : KeepQ tb c c := fun _ _ _ h => ⟨h, rfl⟩

theorem KeepQ.trans {tb : Nat} {c c' c'' : Cont} (h : KeepQ tb c c') (h' : KeepQ tb c' c'') : KeepQ tb c c'' := by
  intro b hb i hi
  obtain ⟨h1, e1⟩ := h b hb i hi
  obtain ⟨h2, e2⟩ := h' b hb i h1
  exact ⟨h2, e2.trans e1⟩

theorem KeepQ.push (tb : Nat) (c : Cont) (b : Nat) (e : Nat × Nat) : KeepQ tb c (upd c b (c b ++ [e])) := by
  intro b' _ i hi
  by_cases hb : b' = b
  · subst hb
    exact ⟨by simp; omega, by simp [List.getElem_append_left hi]⟩
  · exact ⟨by rw [upd_other _ _ hb]; exact hi, by simp [upd_other _ _ hb]⟩

theorem KeepQ.set (tb : Nat) (c : Cont) {b i : Nat} (hi : i < (c b).length) (v : Nat) :
    KeepQ tb c (upd c b ((c b).set i ((c b)[i].1, v))) := by
  intro b' _ j hj
  by_cases hb : b' = b
  · subst hb
    refine ⟨by simpa using hj, ?_⟩
    simp only [upd_same, List.getElem_set]
    split
    · next h => subst h; rfl
    · rfl
  · exact ⟨by rw [upd_other _ _ hb]; exact hj, by simp [upd_other _ _ hb]⟩

/-- the place of a key in the buckets -/
def At (H : HashMapping) (tb : Nat) (c : Cont) (k : Nat) (n : Nav) : Prop :=
  ∃ q, ∃ h : n.pos < (c n.bucket).length, n.bucket < 2 ^ tb ∧ H.map k tb = .ok (q, n.bucket) ∧ (c n.bucket)[n.pos].1 = q

theorem Live.placed_at (L : Laws g P) {t : Tab S O} {c : Cont} {full : Nat → Bool} (h : Live g P t c [] full) {k : Nat} {n : Nav}
    (hk : k < 2 ^ P.kw) : Placed g t k n ↔ At (g.hash P.kw) t.tb c k n := by
  have htb := h.tb_lt L
  constructor
  · rintro ⟨h1, h2⟩
    obtain ⟨n', hn, hc⟩ := h.find L hk
    rw [h1] at hn
    cases hn
    rcases hc with ⟨v, ⟨q, b, i, hi, rfl, hb, hm, he, _⟩ | ⟨p, _, hp⟩⟩ | ⟨rfl, _⟩
    · exact ⟨q, hi, hb, hm, by rw [he]⟩
    · cases hp
    · rw [navEq_true htb (invalid_end htb)] at h2; cases h2
  · rintro ⟨q, hi, hb, hm, he⟩
    have hloc : Loc g P t c [] n k ((c n.bucket)[n.pos]).2 :=
      .inl ⟨q, n.bucket, n.pos, hi, rfl, hb, hm, by rw [← he], hk⟩
    obtain ⟨_, _, hv⟩ := h.loc_read L hloc
    refine ⟨?_, navEq_false htb hv⟩
    have hmem := (h.loc_mem L hloc).1
    obtain ⟨n', hn', hcase⟩ := h.find L hk
    rcases hcase with ⟨v', ⟨q', b, i, hi', rfl, hb', hm', he', _⟩ | ⟨p, _, hp'⟩⟩ | ⟨_, hnm⟩
    · rw [hm] at hm'
      have hqb := Except.ok.inj hm'
      have e1 : b = n.bucket := (congrArg Prod.snd hqb).symm
      have e2 : q' = q := (congrArg Prod.fst hqb).symm
      subst e1 e2
      have : i = n.pos := by
        have hnd := h.cok.nodup _ hb'
        exact (List.getElem_inj (i := i) (j := n.pos) (h₀ := by simpa using hi') (h₁ := by simpa using hi) hnd).mp (by
          rw [List.getElem_map, List.getElem_map, he', he])
      subst this
      exact hn'
    · simp at hp'
    · exact absurd (List.mem_map.mpr ⟨_, hmem, rfl⟩) hnm

theorem At.keep {H : HashMapping} {tb : Nat} {c c' : Cont} {k : Nat} {n : Nav} (h : At H tb c k n) (hc : KeepQ tb c c') :
    At H tb c' k n := by
  obtain ⟨q, h1, h2, h3, h4⟩ := h
  obtain ⟨h5, h6⟩ := hc _ h2 _ h1
  exact ⟨q, h5, h2, h3, h6.trans h4⟩

/-- a key that is found is in a bucket -/
theorem Placed.live (hno : NoOverflow P) {t : Tab S O} {l : List (Nat × Nat)} (h : Inv g P t l) {k : Nat} {n : Nav}
    (hp : Placed g t k n) : ∃ c full, Live g P t c [] full ∧ l.Perm (ents (g.hash P.kw) t.tb c []) := by
  rcases h with ⟨_, _, _, _, h5, _, _, _, m, full, h7⟩ | ⟨c, o, full, hl, hp'⟩
  · obtain ⟨h1, h2⟩ := hp
    unfold Tab.find at h1
    rw [if_pos h5] at h1
    cases h1
    rw [navEq_true (by omega) (invalid_end (by omega))] at h2
    cases h2
  · obtain rfl : o = [] := hno _ _ _ _ hl.orep
    exact ⟨c, full, hl, hp'⟩

/-- `find_or_insert` that leaves the number of buckets alone: nothing happens, or the pair is appended to its bucket -/
theorem ins_same (L : Laws g P) (hno : NoOverflow P) {f : Nat} {t t' : Tab S O} {c : Cont} {full : Nat → Bool} (h : Live g P t c [] full)
    {k v : Nat} {n : Nav} (hk : k < 2 ^ P.kw) (hv : P.normO v = P.norm P.vw v) (hf : P.grow - t.tb < f)
    (hi : Tab.findOrInsert g f t k v = .ok (t', n)) (hb' : t'.tb = t.tb) :
    ∃ c' full', Live g P t' c' [] full' ∧
      ((t' = t ∧ c' = c ∧ At (g.hash P.kw) t.tb c k n) ∨
       ∃ q b, (g.hash P.kw).map k t.tb = .ok (q, b) ∧ b < 2 ^ t.tb ∧ n = ⟨b, (c b).length⟩ ∧
        c' = upd c b (c b ++ [(q, P.norm P.vw v)])) := by
  obtain ⟨f, rfl⟩ : ∃ f', f = f' + 1 := ⟨f - 1, by omega⟩
  have htb := h.tb_pos L
  obtain ⟨q, b, hm, hb⟩ := h.mapk L hk
  obtain ⟨pos, hpos, hcase⟩ := h.locate L hk hm
  have hq := (invKey_of_map (h.map_ok L) hk hm).2.2.1
  have hcons := L.ovf.consult _ _ _ _ b h.orep hb
  unfold Tab.findOrInsert at hi
  have hkw1 : 1 < t.kw := by rw [h.tkw]; exact L.kw_gt
  simp only [ddcheck_ok hkw1, if_neg (show ¬ t.tb = 0 by omega), ok_bind, h.hash, hm, h.checkMap L hk hm, hpos] at hi
  rcases hcase with ⟨rfl, hq'⟩ | ⟨hne, x, hloc⟩
  rotate_left
  · rw [if_pos hne] at hi
    cases hi
    refine ⟨c, full, h, .inl ⟨rfl, rfl, ?_⟩⟩
    rcases hloc with ⟨q, b, i, hi, e, hb, hm, he, _⟩ | ⟨p, _, hp⟩
    · rw [e]; exact ⟨q, hi, hb, hm, by rw [he]⟩
    · cases hp
  simp only [ne_eq, not_true_eq_false, if_false, hcons, ok_bind] at hi
  have hof : (if full b = true then g.ov.find t.ovf k else .ok NPOS : Res Nat) = .ok NPOS := by
    split
    · exact L.ovf.find_out _ _ _ _ _ h.orep (by simp)
    · rfl
  rw [hof] at hi
  simp only [ok_bind, not_true_eq_false, if_false] at hi
  obtain ⟨r, hr, _⟩ := L.store.full _ _ _ _ (h.good L) h.rep hb
  rw [hr] at hi
  simp only [ok_bind] at hi
  cases r with
  | false =>
    have hqd : q < 2 ^ (t.dim g).qw := by
      show q < 2 ^ (t.hash g).remainderWidth t.tb
      rw [h.hash]; exact hq
    obtain ⟨s', hs1, hs2⟩ := L.store.push _ _ _ _ q v (h.good L) h.rep hb hqd hr (by rw [show (t.dim g).vw = P.vw from h.tvw]; exact hv)
    have hdv : (t.dim g).vw = P.vw := h.tvw
    rw [hdv] at hs2
    have hsz := L.store.size _ _ _ _ (h.good L) h.rep hb
    have hpush := ents_push (H := g.hash P.kw) (k := k) (v := P.norm P.vw v) c [] hb (invKey_of_map (h.map_ok L) hk hm).1
    simp only [Bool.false_eq_true, if_false, hsz, ok_bind, hs1, pure_eq_ok] at hi
    cases hi
    refine ⟨_, full, ?_, .inr ⟨q, b, hm, hb, rfl, rfl⟩⟩
    exact {
      tkw := h.tkw, tvw := h.tvw, bpg_pos := h.bpg_pos, bpg_le := h.bpg_le, lo := h.lo, hi := h.hi
      rep := hs2
      orep := h.orep
      cok := h.cok.push hk hm (h.map_ok L) hq' (by simp)
      ofull := h.ofull
      vals := by
        intro b' hb' e he
        by_cases hbb : b' = b
        · subst hbb
          rw [upd_same] at he
          rcases List.mem_append.mp he with he | he
          · exact h.vals b' hb' e he
          · simp only [List.mem_singleton] at he
            subst he
            exact L.norm_idem v
        · rw [upd_other _ _ hbb] at he; exact h.vals b' hb' e he
      ovals := h.ovals
      elems := by
        show t.elems + 1 = _
        rw [hpush.length_eq, h.elems]; simp }
  | true =>
    exfalso
    have hgrow : t.tb < P.grow := by
      rcases Nat.lt_or_ge t.tb P.grow with h1 | h1
      · exact h1
      · rw [h.not_full L h1 hk hm hq'] at hr; exact absurd hr (by simp)
    have hov : ∃ o1, (if g.ov.size t.ovf < g.ov.capacity t.ovf then g.ov.insert t.ovf b k v
        else .ok (t.ovf, NPOS) : Res (O × Nat)) = .ok (o1, NPOS) ∧ ∃ full', Live g P { t with ovf := o1 } c [] full' := by
      by_cases hcap : g.ov.size t.ovf < g.ov.capacity t.ovf
      · rw [if_pos hcap]
        rcases L.ovf.insert _ _ _ _ b k v h.orep hb hcap (by simp) hv with
          ⟨o1, full1, g1, g2, g3⟩ | ⟨o1, full1, p1, o', g1, g2, g3, g4, g5, g6⟩
        · exact ⟨o1, g1, full1, { h with orep := g2, ofull := by simp }⟩
        · have := hno _ _ _ _ g4
          subst this
          have := g3.length_eq
          simp at this
      · rw [if_neg hcap]
        exact ⟨t.ovf, rfl, full, h⟩
    obtain ⟨o1, ho1, full', hl'⟩ := hov
    simp only [if_true, ho1, ok_bind, not_true_eq_false, if_false] at hi
    have hsh : shl64 1 (t.tb + 1) = .ok (2 ^ (t.tb + 1)) := by
      have hlt : t.tb + 1 < 64 := by have := L.grow_le; have := L.hi_lt; omega
      unfold shl64
      rw [if_pos hlt, Nat.shiftLeft_eq, Nat.one_mul]
      exact congrArg _ (Nat.mod_eq_of_lt (Nat.pow_lt_pow_right (by omega) hlt))
    rw [hsh] at hi
    simp only [ok_bind] at hi
    have hinv' : Inv g P { t with ovf := o1 } (ents (g.hash P.kw) t.tb c []) := .inr ⟨c, [], full', hl', .refl _⟩
    obtain ⟨t2, g1, g2, g3, g4⟩ := reserveWith_ok L L (Tab.findOrInsert g f) (ins_ok L f) hl' (n := 2 ^ (t.tb + 1))
      (r := t.tb + 1) (nkw := 0) (reserveBits_pow (by have := L.grow_le; have := L.hi_lt; omega))
      (by have := h.lo; omega) (by have := L.grow_le; omega) (by simp) rfl (by omega)
      (fun e he => ⟨hinv'.key_lt L he, hinv'.val_norm he⟩)
    have g1' : Tab.reserveWith g (Tab.findOrInsert g f)
      { kw := t.kw, vw := t.vw, tb := t.tb, elems := t.elems, bpg := t.bpg, store := t.store, ovf := o1 }
      (2 ^ (t.tb + 1)) 0 = .ok t2 := g1
    simp only [g1', ok_bind] at hi
    obtain ⟨t3, n3, k1, _, k6, _⟩ := ins_ok L f t2 _ k v g2 hk hv (.inr ⟨by omega, by omega⟩)
    rw [hi] at k1
    cases k1
    omega

/-! ## a rehash into the same number of buckets -/

/-- the entry a pair becomes in bucket `b` -/
def entryIn (H : HashMapping) (tb b : Nat) (e : Nat × Nat) : Option (Nat × Nat) :=
  match H.map e.1 tb with
  | .ok (q, b') => if b' = b then some (q, e.2) else none
  | .error _ => none

theorem insAll_same (L : Laws g P) (hno : NoOverflow P) (hg : P.grow < 65) : ∀ (xs : List (Nat × Nat)) {t t' : Tab S O} {c : Cont} {full : Nat → Bool},
    Live g P t c [] full → (∀ e ∈ xs, e.1 < 2 ^ P.kw ∧ P.norm P.vw e.2 = e.2) →
    ((ents (g.hash P.kw) t.tb c [] ++ xs).map Prod.fst).Nodup →
    xs.foldlM (insStep (Tab.findOrInsert g depth)) t = .ok t' → t'.tb = t.tb →
    ∃ c' full', Live g P t' c' [] full' ∧ ∀ b < 2 ^ t.tb, c' b = c b ++ xs.filterMap (entryIn (g.hash P.kw) t.tb b) := by
  intro xs
  induction xs with
  | nil =>
    intro t t' c full h _ _ hi _
    cases hi
    exact ⟨c, full, h, by simp⟩
  | cons e xs ih =>
    intro t t' c full h hx hnd hi hb
    obtain ⟨hk, hv⟩ := hx e (by simp)
    have hvo : P.normO e.2 = P.norm P.vw e.2 := by
      have := L.normO_norm e.2
      rw [hv] at this
      rw [this, hv]
    have hnm : e.1 ∉ (ents (g.hash P.kw) t.tb c []).map Prod.fst := by
      rw [List.map_append, List.map_cons] at hnd
      intro hmem
      exact (List.nodup_append.mp hnd).2.2 _ hmem _ (by simp) rfl
    obtain ⟨t1, n, h1, h2, h3, h4⟩ := ins_ok L depth t _ e.1 e.2 (.inr ⟨c, [], full, h, .refl _⟩) hk hvo (.inl hg)
    have hinv := InsRes.inv h2 hnm
    rw [hv] at hinv
    have hp : ((e :: ents (g.hash P.kw) t.tb c []) ++ xs).Perm (ents (g.hash P.kw) t.tb c [] ++ e :: xs) := by
      rw [List.cons_append]; exact List.perm_middle.symm
    rw [List.foldlM_cons] at hi
    simp only [insStep, h1, ok_bind, pure_eq_ok] at hi
    obtain ⟨t2, g1, _, g3, _⟩ := insAll L (Tab.findOrInsert g depth) (ins_ok L depth) xs t1 _ hinv (.inl hg)
      (fun x hx' => hx x (by simp [hx'])) ((hp.map Prod.fst).nodup_iff.mpr hnd)
    have g1' : xs.foldlM (insStep (Tab.findOrInsert g depth)) t1 = .ok t' := hi
    rw [g1] at g1'
    cases g1'
    have e1 : t1.tb = t.tb := by omega
    obtain ⟨c1, full1, k1, k2⟩ := ins_same L hno h hk hvo (by show _ < 65; omega) h1 e1
    rcases k2 with ⟨rfl, rfl, q, hq, hb1, hm, he⟩ | ⟨q, b, hm, hb1, rfl, rfl⟩
    · exfalso
      refine hnm (List.mem_map.mpr ⟨(e.1, (c1 n.bucket)[n.pos].2), ?_, rfl⟩)
      exact (h.loc_mem L (.inl ⟨q, n.bucket, n.pos, hq, rfl, hb1, hm, by rw [← he], hk⟩)).1
    · rw [hv] at k1
      have hpush := ents_push (H := g.hash P.kw) (k := e.1) (v := e.2) c [] hb1 (invKey_of_map (h.map_ok L) hk hm).1
      obtain ⟨c', full', j1, j2⟩ := ih k1 (fun x hx' => hx x (by simp [hx'])) (by
        rw [e1]
        exact (((hpush.append_right xs).trans hp).map Prod.fst).nodup_iff.mpr hnd) hi (by omega)
      refine ⟨c', full', j1, fun b' hb' => ?_⟩
      rw [j2 b' (by rw [e1]; exact hb'), e1, List.filterMap_cons]
      by_cases hbb : b' = b
      · subst hbb
        have : entryIn (g.hash P.kw) t.tb b' e = some (q, e.2) := by simp [entryIn, hm]
        rw [this]; simp
      · have : entryIn (g.hash P.kw) t.tb b' e = none := by simp [entryIn, hm, Ne.symm hbb]
        rw [this, upd_other _ _ hbb]

theorem flatMap_single {α : Type} (xs : List α) {n b : Nat} (hb : b < n) :
    (List.range n).flatMap (fun b' => if b' = b then xs else []) = xs := by
  have base : ∀ m, m ≤ b → (List.range m).flatMap (fun b' => if b' = b then xs else []) = [] := by
    intro m hm
    rw [List.flatMap_eq_nil_iff]
    intro x hx
    have := List.mem_range.mp hx
    rw [if_neg (by omega)]
  induction n with
  | zero => omega
  | succ n ih =>
    rw [List.range_succ, List.flatMap_append]
    by_cases h : b = n
    · subst h; rw [base b (Nat.le_refl _)]; simp
    · rw [ih (by omega)]; simp [Ne.symm h]

theorem Live.entries (L : Laws g P) {t : Tab S O} {c : Cont} {full : Nat → Bool} (h : Live g P t c [] full) {b : Nat} (hb : b < 2 ^ t.tb) :
    (ents (g.hash P.kw) t.tb c []).filterMap (entryIn (g.hash P.kw) t.tb b) = c b := by
  have e0 : ents (g.hash P.kw) t.tb c [] = stored (g.hash P.kw) t.tb c := by simp [ents]
  have e1 : ∀ b' < 2 ^ t.tb, ∀ xs : List (Nat × Nat), (∀ e ∈ xs, e ∈ c b') →
      (bEnts (g.hash P.kw) t.tb b' xs).filterMap (entryIn (g.hash P.kw) t.tb b) = if b' = b then xs else [] := by
    intro b' hb' xs
    induction xs with
    | nil => intro _; simp [bEnts]
    | cons e xs ih =>
      intro hx
      have hm := (map_of_mem (h.map_ok L) h.cok hb' (hx e (by simp))).2.1
      have ih := ih (fun y hy => hx y (by simp [hy]))
      unfold bEnts at ih ⊢
      rw [List.map_cons, List.filterMap_cons, ih]
      by_cases hbb : b' = b
      · subst hbb; simp [entryIn, hm]
      · simp [entryIn, hm, hbb]
  rw [e0, stored, List.filterMap_flatMap]
  rw [show (List.range (2 ^ t.tb)).flatMap (fun b' => (bEnts (g.hash P.kw) t.tb b' (c b')).filterMap (entryIn (g.hash P.kw) t.tb b)) =
    (List.range (2 ^ t.tb)).flatMap (fun b' => if b' = b then c b else []) from ?_, flatMap_single _ hb]
  rw [List.flatMap_def, List.flatMap_def]
  congr 1
  apply List.map_congr_left
  intro b' hb'
  rw [e1 b' (by simpa using hb') (c b') (fun _ h => h)]
  split
  · next h => rw [h]
  · rfl

/-- `reserve(n)` that leaves the number of buckets alone leaves all entries at their places -/
theorem Live.reserve_same (L : Laws g P) (hno : NoOverflow P) (hg : P.grow < 65) {t t' : Tab S O} {c : Cont} {full : Nat → Bool}
    (h : Live g P t c [] full) {n r : Nat} (hr : reserveBits n = .ok r) (hlo : P.lo ≤ r) (hhi : r ≤ P.hi)
    (hi : t.reserve g n = .ok t') (hb' : t'.tb = t.tb) (hrt : r = t.tb) :
    ∃ c' full', Live g P t' c' [] full' ∧ ∀ b < 2 ^ t.tb, c' b = c b := by
  have htb := h.tb_pos L
  have hrlt : r < 64 := Nat.lt_of_le_of_lt hhi L.hi_lt
  obtain ⟨full0, ho0⟩ := L.ovf.new P.kw P.vw
  obtain ⟨t1, full1, h1, h2, h3, _⟩ := reserveEmpty_ok L
    (t := { Tab.new g P.kw P.vw with bpg := g.rehashBpg }) (n := 2 ^ r) (r := r) rfl rfl L.rbpg_pos L.rbpg_le rfl
    ho0 L.fresh (reserveBits_pow hrlt) hlo hhi
  have hinv : Inv g P t (ents (g.hash P.kw) t.tb c []) := .inr ⟨c, [], full, h, .refl _⟩
  unfold Tab.reserve Tab.reserveWith at hi
  rw [hr, ok_bind, if_neg (by omega), if_pos rfl, h.tkw, h.tvw] at hi
  simp only [h1, ok_bind] at hi
  obtain ⟨t2, g1, hi⟩ := bind_eq_ok hi
  obtain ⟨_, _, hi⟩ := bind_eq_ok hi
  obtain ⟨t3, g2, hi⟩ := bind_eq_ok hi
  obtain ⟨_, _, hi⟩ := bind_eq_ok hi
  cases hi
  have hre := h.rehash L (Tab.findOrInsert g depth) t1
  rw [g1, ok_bind, g2] at hre
  obtain ⟨c', full', k1, k2⟩ := insAll_same L hno hg _ h2 (fun e he => ⟨hinv.key_lt L he, hinv.val_norm he⟩)
    (by rw [ents_nil]; simpa using ents_nodup (h.map_ok L) h.cok) hre.symm (by omega)
  refine ⟨c', full', k1, fun b hb => ?_⟩
  rw [k2 b (by rw [h3, hrt]; exact hb), h3, hrt, List.nil_append, h.entries L hb]

/-! ## the calls -/

/-- what every call that removes nothing and is no `reserve` does to the buckets, if their number stays the same -/
theorem Live.step_keep (L : Laws g P) (hno : NoOverflow P) (hg : P.grow < 65) {t t' : Tab S O} {c : Cont} {full : Nat → Bool}
    (h : Live g P t c [] full) {op : MapOp} (hop : OpOK P op) (hq : Growing op) {a : Ans} (hs : t.step g op = .ok (t', a))
    (hb : t'.tb = t.tb) : ∃ c' full', Live g P t' c' [] full' ∧ KeepQ t.tb c c' := by
  have ins : ∀ {k v : Nat} {t1 : Tab S O} {n : Nav}, k < 2 ^ P.kw → P.normO v = P.norm P.vw v → t.insert g k v = .ok (t1, n) →
      t1.tb = t.tb → ∃ c' full', Live g P t1 c' [] full' ∧ KeepQ t.tb c c' ∧ At (g.hash P.kw) t.tb c' k n := by
    intro k v t1 n hk hv hi ht
    obtain ⟨c', full', h1, h2⟩ := ins_same L hno h hk hv (by show _ < 65; omega) hi ht
    refine ⟨c', full', h1, ?_⟩
    rcases h2 with ⟨_, rfl, h3⟩ | ⟨q, b, hm, hb, rfl, rfl⟩
    · exact ⟨KeepQ.refl _ _, h3⟩
    · exact ⟨KeepQ.push _ _ _ _, q, by simp, hb, hm, by simp⟩
  cases op with
  | insert k v =>
    obtain ⟨⟨t1, n⟩, h1, hs⟩ := bind_eq_ok hs
    obtain ⟨_, _, hs⟩ := bind_eq_ok hs
    obtain ⟨_, _, hs⟩ := bind_eq_ok hs
    cases hs
    obtain ⟨c', full', g1, g2, _⟩ := ins hop.1 hop.2 h1 hb
    exact ⟨c', full', g1, g2⟩
  | get k =>
    obtain ⟨⟨t1, n⟩, h1, hs⟩ := bind_eq_ok hs
    obtain ⟨_, _, hs⟩ := bind_eq_ok hs
    cases hs
    obtain ⟨c', full', g1, g2, _⟩ := ins hop.1 hop.2 h1 hb
    exact ⟨c', full', g1, g2⟩
  | assign k v =>
    obtain ⟨⟨t1, n⟩, h1, hs⟩ := bind_eq_ok hs
    obtain ⟨t2, h2, hs⟩ := bind_eq_ok hs
    cases hs
    have e : t'.tb = t1.tb := by
      unfold Tab.writeValue at h2
      split at h2
      · obtain ⟨_, _, h2⟩ := bind_eq_ok h2; cases h2; rfl
      · obtain ⟨_, _, h2⟩ := bind_eq_ok h2
        obtain ⟨_, _, h2⟩ := bind_eq_ok h2; cases h2; rfl
    obtain ⟨c', full', g1, g2, q, g3, g4, g5, g6⟩ := ins hop.1 hop.2.2 h1 (by omega)
    obtain ⟨t3, k1, k2, k3⟩ := Live.writeAt1 L g1 (show n.bucket < 2 ^ t1.tb by rw [← e, hb]; exact g4) g3 (x := v) hop.2.1
    rw [show (⟨n.bucket, n.pos⟩ : Nav) = n from rfl, h2] at k1
    cases k1
    exact ⟨_, full', k2, g2.trans (KeepQ.set _ _ g3 _)⟩
  | find k =>
    obtain ⟨n, _, hs⟩ := bind_eq_ok hs
    obtain ⟨e, _, hs⟩ := bind_eq_ok hs
    have : t' = t := by
      split at hs
      · cases hs; rfl
      · obtain ⟨_, _, hs⟩ := bind_eq_ok hs
        obtain ⟨_, _, hs⟩ := bind_eq_ok hs
        cases hs; rfl
    subst this
    exact ⟨c, full, h, KeepQ.refl _ _⟩
  | count k =>
    obtain ⟨_, _, hs⟩ := bind_eq_ok hs
    cases hs
    exact ⟨c, full, h, KeepQ.refl _ _⟩
  | size => cases hs; exact ⟨c, full, h, KeepQ.refl _ _⟩
  | empty => cases hs; exact ⟨c, full, h, KeepQ.refl _ _⟩
  | shrink =>
    obtain ⟨t1, h1, hs⟩ := bind_eq_ok hs
    cases hs
    have ht : ¬ t.tb = 0 := by have := h.tb_pos L; omega
    obtain ⟨t2, g1, g2, g3⟩ := h.shrinkFold L (List.range t.bucketCount) (by intro b hb; rw [h.bc L] at hb; simpa using hb)
    have h1 : (if t.tb = 0 then _ else _ : Res (Tab S O)) = .ok t' := h1
    rw [if_neg ht, g1] at h1
    cases h1
    exact ⟨c, full, g2, KeepQ.refl _ _⟩
  | erase k => cases hq
  | reserve n => cases hq
  | clear => cases hq

/-- calls that remove nothing and are no `reserve` do not reduce the number of buckets -/
theorem step_mono (L : Laws g P) (hg : P.grow < 65) {t t' : Tab S O} {l : List (Nat × Nat)} (h : Inv g P t l) {op : MapOp}
    (hop : OpOK P op) (hq : Growing op) {a : Ans} (hs : t.step g op = .ok (t', a)) : t.tb ≤ t'.tb := by
  have ins : ∀ {k v : Nat} {t1 : Tab S O} {n : Nav}, k < 2 ^ P.kw → P.normO v = P.norm P.vw v → t.insert g k v = .ok (t1, n) →
      t.tb ≤ t1.tb := by
    intro k v t1 n hk hv hi
    obtain ⟨t', n', h1, _, h3, _⟩ := h.insert L hg hk hv
    rw [hi] at h1; cases h1; exact h3
  cases op with
  | insert k v =>
    obtain ⟨⟨t1, n⟩, h1, hs⟩ := bind_eq_ok hs
    obtain ⟨_, _, hs⟩ := bind_eq_ok hs
    obtain ⟨_, _, hs⟩ := bind_eq_ok hs
    cases hs
    exact ins hop.1 hop.2 h1
  | get k =>
    obtain ⟨⟨t1, n⟩, h1, hs⟩ := bind_eq_ok hs
    obtain ⟨_, _, hs⟩ := bind_eq_ok hs
    cases hs
    exact ins hop.1 hop.2 h1
  | assign k v =>
    obtain ⟨⟨t1, n⟩, h1, hs⟩ := bind_eq_ok hs
    obtain ⟨t2, h2, hs⟩ := bind_eq_ok hs
    cases hs
    have e : t'.tb = t1.tb := by
      unfold Tab.writeValue at h2
      split at h2
      · obtain ⟨_, _, h2⟩ := bind_eq_ok h2; cases h2; rfl
      · obtain ⟨_, _, h2⟩ := bind_eq_ok h2
        obtain ⟨_, _, h2⟩ := bind_eq_ok h2; cases h2; rfl
    have := ins hop.1 hop.2.2 h1
    omega
  | find k =>
    obtain ⟨n, _, hs⟩ := bind_eq_ok hs
    obtain ⟨e, _, hs⟩ := bind_eq_ok hs
    have : t' = t := by
      split at hs
      · cases hs; rfl
      · obtain ⟨_, _, hs⟩ := bind_eq_ok hs
        obtain ⟨_, _, hs⟩ := bind_eq_ok hs
        cases hs; rfl
    subst this
    exact Nat.le_refl _
  | count k =>
    obtain ⟨_, _, hs⟩ := bind_eq_ok hs
    cases hs
    exact Nat.le_refl _
  | size => cases hs; exact Nat.le_refl _
  | empty => cases hs; exact Nat.le_refl _
  | shrink =>
    obtain ⟨t1, h1, hs⟩ := bind_eq_ok hs
    cases hs
    obtain ⟨t2, g1, _, g3⟩ := h.shrink L
    rw [h1] at g1; cases g1
    omega
  | erase k => cases hq
  | reserve n => cases hq
  | clear => cases hq

theorem run_keep (L : Laws g P) (hno : NoOverflow P) (hg : P.grow < 65) : ∀ (ops : List MapOp) {t t' : Tab S O} {c : Cont} {full : Nat → Bool}
    {as : List Ans}, Live g P t c [] full → (∀ op ∈ ops, OpOK P op ∧ Growing op) → t.run g ops = .ok (t', as) →
    t.tb ≤ t'.tb ∧ (t'.tb = t.tb → ∃ c' full', Live g P t' c' [] full' ∧ KeepQ t.tb c c') := by
  have mono : ∀ (ops : List MapOp) {t t' : Tab S O} {l : List (Nat × Nat)} {m : FMap} {as : List Ans}, Inv g P t l → Abs l m →
      (∀ op ∈ ops, OpOK P op ∧ Growing op) → t.run g ops = .ok (t', as) → t.tb ≤ t'.tb := by
    intro ops
    induction ops with
    | nil => intro t t' l m as _ _ _ hr; cases hr; exact Nat.le_refl _
    | cons op ops ih =>
      intro t t' l m as h ha hops hr
      obtain ⟨⟨t1, a⟩, h1, hr⟩ := bind_eq_ok hr
      obtain ⟨⟨t2, as'⟩, h2, hr⟩ := bind_eq_ok hr
      cases hr
      obtain ⟨ho, hq⟩ := hops op (by simp)
      have := step_mono L hg h ho hq h1
      obtain ⟨t3, l', g1, g2, g3⟩ := Tab.step_ok L hg h ha op ho
      rw [h1] at g1
      cases g1
      have := ih g2 g3 (fun x hx => hops x (by simp [hx])) h2
      omega
  intro ops t t' c full as h hops hr
  obtain ⟨m, hm⟩ := Abs.ofPairs (l := ents (g.hash P.kw) t.tb c []) (ents_nodup (h.map_ok L) h.cok)
  refine ⟨mono ops (.inr ⟨c, [], full, h, .refl _⟩) hm hops hr, ?_⟩
  clear hm m
  induction ops generalizing t c full as with
  | nil => intro _; cases hr; exact ⟨c, full, h, KeepQ.refl _ _⟩
  | cons op ops ih =>
    intro hb
    obtain ⟨⟨t1, a⟩, h1, hr⟩ := bind_eq_ok hr
    obtain ⟨⟨t2, as'⟩, h2, hr⟩ := bind_eq_ok hr
    cases hr
    obtain ⟨ho, hq⟩ := hops op (by simp)
    obtain ⟨m, hm⟩ := Abs.ofPairs (l := ents (g.hash P.kw) t.tb c []) (ents_nodup (h.map_ok L) h.cok)
    have hinv : Inv g P t (ents (g.hash P.kw) t.tb c []) := .inr ⟨c, [], full, h, .refl _⟩
    have m1 := step_mono L hg hinv ho hq h1
    obtain ⟨t3, l', g1, g2, g3⟩ := Tab.step_ok L hg hinv hm op ho
    rw [h1] at g1
    cases g1
    have m2 := mono ops g2 g3 (fun x hx => hops x (by simp [hx])) h2
    obtain ⟨c1, full1, k1, k2⟩ := h.step_keep L hno hg ho hq h1 (by omega)
    obtain ⟨c2, full2, k3, k4⟩ := ih k1 (fun x hx => hops x (by simp [hx])) h2 (by omega)
    exact ⟨c2, full2, k3, k2.trans (by rw [show t.tb = t1.tb by omega]; exact k4)⟩

/-- **navigators stay on their elements** during calls that remove nothing, are no `reserve` and leave the number of buckets alone -/
theorem fact_stable (L : Laws g P) (hno : NoOverflow P) (hg : P.grow < 65) {t t' : Tab S O} {m : FMap} (h : Sem g P t m) {ops : List MapOp}
    (hops : ∀ op ∈ ops, OpOK P op ∧ Growing op) {as : List Ans} (hr : t.run g ops = .ok (t', as)) (hb : t'.bucketCount = t.bucketCount)
    {k : Nat} {n : Nav} (hk : k < 2 ^ P.kw) (hp : Placed g t k n) : Placed g t' k n := by
  obtain ⟨l, h, ha⟩ := h
  obtain ⟨c, full, hl, _⟩ := hp.live hno h
  have ht := hl.tb_pos L
  obtain ⟨m1, hk'⟩ := run_keep L hno hg ops hl hops hr
  have e : t'.tb = t.tb := by
    unfold Tab.bucketCount at hb
    rw [if_neg (by omega), if_neg (by omega)] at hb
    exact (Nat.pow_right_inj (by omega)).mp hb
  obtain ⟨c', full', g1, g2⟩ := hk' e
  have := ((hl.placed_at L hk).mp hp).keep g2
  rw [← e] at this
  exact (g1.placed_at L hk).mpr this

/-- `reserve(n)` where `n` is rounded to the present number of buckets -/
theorem fact_reserve_stable (L : Laws g P) (hno : NoOverflow P) (hg : P.grow < 65) {t t' : Tab S O} {m : FMap} (h : Sem g P t m) {x : Nat}
    (hx : x ≤ t.bucketCount) (hx' : t.bucketCount < 2 * x) (hr : t.reserve g x = .ok t') (hb : t'.bucketCount = t.bucketCount)
    {k : Nat} {n : Nav} (hk : k < 2 ^ P.kw) (hp : Placed g t k n) : Placed g t' k n := by
  obtain ⟨l, h, ha⟩ := h
  obtain ⟨c, full, hl, _⟩ := hp.live hno h
  have ht := hl.tb_pos L
  have htl := hl.tb_lt L
  rw [hl.bc L] at hx hx' hb
  have hrb := reserveBits_eq (n := x) (r := t.tb) (by have := Nat.two_pow_pos t.tb; omega) hx hx' htl
  have e : t'.tb = t.tb := by
    unfold Tab.bucketCount at hb
    split at hb
    · have := Nat.two_pow_pos t.tb; omega
    · exact (Nat.pow_right_inj (by omega)).mp hb
  obtain ⟨c', full', g1, g2⟩ := hl.reserve_same L hno hg hrb hl.lo hl.hi hr e rfl
  obtain ⟨q, j1, j2, j3, j4⟩ := (hl.placed_at L hk).mp hp
  refine (g1.placed_at L hk).mpr ⟨q, by rw [g2 _ j2]; exact j1, by rw [e]; exact j2, by rw [e]; exact j3, ?_⟩
  have := g2 _ j2
  rw [← j4]
  congr 1
  exact List.getElem_of_eq this _

/-- erasing another element -/
theorem fact_erase_stable (L : Laws g P) (hno : NoOverflow P) {t t' : Tab S O} {m : FMap} (h : Sem g P t m) {r : Nat} {k k' : Nat}
    {n n' : Nav} (hk : k < 2 ^ P.kw) (hk' : k' < 2 ^ P.kw) (hne : k' ≠ k) (hr : t.erase g k' = .ok (t', r)) (hp : Placed g t k n)
    (hf : t.find g k' = .ok n') : Placed g t' k (n.without n') := by
  obtain ⟨l, h, ha⟩ := h
  obtain ⟨c, full, hl, _⟩ := hp.live hno h
  have htb := hl.tb_lt L
  have ht : ¬ t.tb = 0 := by have := hl.tb_pos L; omega
  have hpow : 2 ^ t.tb < NPOS := by
    have := Nat.pow_le_pow_right (show 0 < 2 by omega) (show t.tb ≤ 63 by omega)
    have : (2 : Nat) ^ 63 < NPOS := by decide
    omega
  obtain ⟨q, j1, j2, j3, j4⟩ := (hl.placed_at L hk).mp hp
  obtain ⟨n1, f1, f2⟩ := hl.find L hk'
  rw [hf] at f1
  cases f1
  obtain ⟨n2, e1, e2⟩ := hl.locateKey L hk'
  simp only [Tab.erase, if_neg ht, e1, ok_bind] at hr
  have same : t' = t → n.without n' = n → Placed g t' k (n.without n') := by
    rintro rfl e; rw [e]; exact hp
  rcases e2 with ⟨e2, v, hloc⟩ | ⟨e2, hnm⟩
  rotate_left
  · rcases f2 with ⟨v, hloc⟩ | ⟨rfl, _⟩
    · exact absurd (List.mem_map.mpr ⟨_, (hl.loc_mem L hloc).1, rfl⟩) hnm
    · refine same ?_ ?_
      · simp only [Tab.eraseNav, e2, if_true] at hr; cases hr; rfl
      · unfold Nav.without Nav.end_
        rw [if_neg]
        rintro ⟨h1, _⟩
        rw [← h1] at j2; simp only at j2; omega
  · -- `locate` and `find` agree
    rcases hloc with ⟨q', b, i, hi, rfl, hb, hm, he, _⟩ | ⟨p, _, hp'⟩
    rotate_left
    · cases hp'
    have hn : Placed g t k' ⟨b, i⟩ := (hl.placed_at L hk').mpr ⟨q', hi, hb, hm, by rw [he]⟩
    obtain ⟨hn, _⟩ := hn
    rw [hf] at hn
    cases hn
    obtain ⟨t2, g1, g2, g3⟩ := hl.eraseAt L hb hi
    rw [hr] at g1
    cases g1
    refine (g2.placed_at L hk).mpr ?_
    rw [g3]
    unfold Nav.without
    by_cases hbb : n.bucket = b
    · obtain ⟨nb, np⟩ := n
      simp only at hbb j1 j2 j3 j4
      subst hbb
      have hqq : i ≠ np := by
        rintro rfl
        rw [he] at j4
        simp only at j4
        subst j4
        have i1 := (invKey_of_map (hl.map_ok L) hk j3).1
        have i2 := (invKey_of_map (hl.map_ok L) hk' hm).1
        exact hne (i2.symm.trans i1)
      by_cases hlt : i < np
      · rw [if_pos ⟨rfl, hlt⟩]
        refine ⟨q, ?_, j2, j3, ?_⟩
        · simp only [upd_same, List.length_eraseIdx_of_lt hi]; omega
        · simp only [upd_same]
          rw [List.getElem_eraseIdx_of_ge _ (by omega), ← j4]
          congr 1
          congr 1
          omega
      · rw [if_neg (by simp; omega)]
        refine ⟨q, ?_, j2, j3, ?_⟩
        · simp only [upd_same, List.length_eraseIdx_of_lt hi]; omega
        · simp only [upd_same]
          rw [List.getElem_eraseIdx_of_lt _ (by omega), ← j4]
    · rw [if_neg (by simp [Ne.symm hbb])]
      refine ⟨q, by rw [upd_other _ _ hbb]; exact j1, j2, j3, ?_⟩
      rw [← j4]
      congr 1
      exact List.getElem_of_eq (upd_other _ _ hbb) _

theorem fact_stableSpec (L : Laws g P) (hno : NoOverflow P) (hg : P.grow < 65) {valid : MapOp → Prop} (hv : ∀ op, valid op → OpOK P op)
    {t : Tab S O} {m : FMap} (h : Sem g P t m) : StableSpec g P.kw valid t where
  reads := by
    rintro k n hk ⟨h1, h2⟩
    have h0 := h
    obtain ⟨l, h, ha⟩ := h
    rcases h.find L hk with ⟨n', v, g1, g2, _, g4, g5⟩ | ⟨g1, g2, _⟩
    · rw [h1] at g1
      cases g1
      exact ⟨g4, v, by rw [h0.lookup L hk, (ha.get k v).mpr g2]; rfl, g5⟩
    · rw [h1] at g1
      cases g1
      rw [h2] at g2; cases g2
  calls := fun _ _ _ _ _ hops hr hb hk hp => fact_stable L hno hg h (fun op ho => ⟨hv _ (hops op ho).1, (hops op ho).2⟩) hr hb hk hp
  reserve := fun _ _ _ _ hx hx' hr hb hk hp => fact_reserve_stable L hno hg h hx hx' hr hb hk hp
  erase := fun _ _ _ _ _ _ hk' hr hf hk hne hp => fact_erase_stable L hno h hk hk' (Ne.symm hne) hr hp hf

end SC
