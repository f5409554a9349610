import Verif.BucketTable.Proofs
/-!
# `bucket_table`: histories and iteration
-/
namespace SC
variable {A VB : Type} {c : BtCfg A VB} {kw : Nat} {M : BtMean A VB}

/-- the calls that are allowed: keys are at most `max_key()`, and there is no `reserve` -/
def BtValid (kw : Nat) : MapOp → Prop
  | .insert k _ | .get k | .assign k _ | .find k | .count k | .erase k => k < 2 ^ kw
  | .reserve _ => False
  | _ => True

instance (kw : Nat) (op : MapOp) : Decidable (BtValid kw op) := by
  cases op <;> unfold BtValid <;> infer_instance

/-- `find_or_insert` in terms of the finite map -/
theorem BtRep.insert_abs (L : BtLaws c kw M) {t : BTab A VB} {l : List (Nat × Nat)} (h : BtRep c kw M t l) {m : FMap}
    (ha : Abs l m) {k v : Nat} (hk : k < 2 ^ kw) (hroom : m.get k = none → m.size + 1 ≤ btMax c.strat) :
    ∃ t' i x l', t.insert c k v = .ok (t', i) ∧ BtRep c kw M t' l' ∧ (∃ hi : i < l'.length, l'[i] = (k, x)) ∧
      ((m.get k = some x ∧ l' = l) ∨ (m.get k = none ∧ x = v % 2 ^ c.vbits ∧ l' = l ++ [(k, x)])) := by
  obtain ⟨h1, h2⟩ := h.insert L (v := v) hk
  cases hg : m.get k with
  | some x =>
    obtain ⟨i, hi, e1, e2⟩ := h1 x ((ha.get k x).mp hg)
    exact ⟨t, i, x, l, e2, h, ⟨hi, e1⟩, .inl ⟨rfl, rfl⟩⟩
  | none =>
    obtain ⟨t', e1, e2⟩ := h2 (ha.none.mp hg) (by rw [← ha.size]; exact hroom hg)
    exact ⟨t', l.length, v % 2 ^ c.vbits, _, e1, e2, ⟨by simp, by simp⟩, .inr ⟨rfl, rfl, rfl⟩⟩

theorem perm_snoc (l : List (Nat × Nat)) (e : Nat × Nat) : (l ++ [e]).Perm (e :: l) := List.perm_append_singleton e l

theorem set_perm {l : List (Nat × Nat)} {i : Nat} (h : i < l.length) (e : Nat × Nat) : (l.set i e).Perm (e :: l.eraseIdx i) := by
  have h' : i < (l.set i e).length := by simpa using h
  have := (getElem_cons_eraseIdx h').symm
  rw [List.getElem_set_self, List.eraseIdx_set_eq] at this
  exact this

theorem BtRep.step (L : BtLaws c kw M) {t : BTab A VB} {l : List (Nat × Nat)} (h : BtRep c kw M t l) {m : FMap}
    (ha : Abs l m) (op : MapOp) (hop : BtValid kw op) (hroom : (m.step (fun v => v % 2 ^ c.vbits) op).1.size ≤ btMax c.strat) :
    ∃ t' l', t.step c op = .ok (t', (m.step (fun v => v % 2 ^ c.vbits) op).2) ∧ BtRep c kw M t' l' ∧
      Abs l' (m.step (fun v => v % 2 ^ c.vbits) op).1 := by
  have hmax := btMax_lt c.strat
  have hle := h.le
  cases op with
  | insert k v =>
    obtain ⟨t', i, x, l', h1, h2, ⟨hi, ei⟩, h3⟩ := h.insert_abs L ha (k := k) (v := v) hop
      (fun e => by simpa [FMap.step, e, FMap.put] using hroom)
    obtain ⟨r1, r2⟩ := h2.read L hi
    rw [ei] at r1 r2
    refine ⟨t', l', ?_, h2, ?_⟩
    · simp only [BTab.step, h1, ok_bind, r1, r2, pure_eq_ok]
      rcases h3 with ⟨e1, _⟩ | ⟨e1, rfl, _⟩ <;> simp [FMap.step, e1]
    · rcases h3 with ⟨e1, rfl⟩ | ⟨e1, rfl, rfl⟩
      · simpa [FMap.step, e1] using ha
      · simpa [FMap.step, e1] using (ha.put_new (ha.none.mp e1)).perm (perm_snoc _ _)
  | get k =>
    obtain ⟨t', i, x, l', h1, h2, ⟨hi, ei⟩, h3⟩ := h.insert_abs L ha (k := k) (v := 0) hop
      (fun e => by simpa [FMap.step, e, FMap.put] using hroom)
    obtain ⟨r1, r2⟩ := h2.read L hi
    rw [ei] at r1 r2
    refine ⟨t', l', ?_, h2, ?_⟩
    · simp only [BTab.step, h1, ok_bind, r2, pure_eq_ok]
      rcases h3 with ⟨e1, _⟩ | ⟨e1, rfl, _⟩ <;> simp [FMap.step, e1]
    · rcases h3 with ⟨e1, rfl⟩ | ⟨e1, rfl, rfl⟩
      · simpa [FMap.step, e1] using ha
      · simpa [FMap.step, e1] using (ha.put_new (ha.none.mp e1)).perm (perm_snoc _ _)
  | assign k v =>
    obtain ⟨t', i, x, l', h1, h2, ⟨hi, ei⟩, h3⟩ := h.insert_abs L ha (k := k) (v := 0) hop
      (fun e => by simpa [FMap.step, e, FMap.put] using hroom)
    obtain ⟨t2, w1, w2⟩ := h2.writeValue L (v := v) hi
    rw [ei] at w2
    refine ⟨t2, _, ?_, w2, ?_⟩
    · simp only [BTab.step, h1, ok_bind, w1, pure_eq_ok, FMap.step]
    · have hp : l'.Perm ((k, x) :: l'.eraseIdx i) := by rw [← ei]; exact (getElem_cons_eraseIdx hi).symm
      refine Abs.perm ?_ (set_perm hi _)
      rcases h3 with ⟨e1, rfl⟩ | ⟨e1, rfl, rfl⟩
      · exact ha.put_old hp h.nodup
      · have hp' := ((perm_snoc l _).symm.trans hp).cons_inv
        exact (ha.put_new (ha.none.mp e1)).perm (hp'.symm.cons _)
  | find k =>
    have hf := h.find L (k := k) hop
    cases hg : m.get k with
    | some x =>
      obtain ⟨hi, ei⟩ := idx_of_mem h.nodup ((ha.get k x).mp hg)
      have hmem : k ∈ l.map Prod.fst := List.mem_map.mpr ⟨_, (ha.get k x).mp hg, rfl⟩
      have hp : posOf (l.map Prod.fst) k = (l.map Prod.fst).idxOf k := by simp only [posOf, if_pos hmem]
      refine ⟨t, l, ?_, h, by simpa [FMap.step, hg] using ha⟩
      simp only [BTab.step, hf, ok_bind, hp, h.navEq, FMap.step, hg]
      rw [if_neg (by simpa using hi), List.getElem?_eq_getElem hi, ei]
      rfl
    | none =>
      have hp : posOf (l.map Prod.fst) k = NPOS := (posOf_npos (by simp; omega)).mpr (ha.none.mp hg)
      refine ⟨t, l, ?_, h, by simpa [FMap.step, hg] using ha⟩
      simp only [BTab.step, hf, ok_bind, hp, h.navEq, FMap.step, hg]
      rw [if_pos (by simp only [NPOS, decide_eq_true_eq]; omega), pure_eq_ok]
  | count k =>
    have hf := h.find L (k := k) hop
    refine ⟨t, l, ?_, h, ha⟩
    simp only [BTab.step, hf, ok_bind, h.navEq, FMap.step, pure_eq_ok]
    cases hg : m.get k with
    | some x =>
      obtain ⟨hi, ei⟩ := idx_of_mem h.nodup ((ha.get k x).mp hg)
      have hmem : k ∈ l.map Prod.fst := List.mem_map.mpr ⟨_, (ha.get k x).mp hg, rfl⟩
      have hp : posOf (l.map Prod.fst) k = (l.map Prod.fst).idxOf k := by simp only [posOf, if_pos hmem]
      rw [hp, if_neg (by simpa using hi)]; rfl
    | none =>
      have hp : posOf (l.map Prod.fst) k = NPOS := (posOf_npos (by simp; omega)).mpr (ha.none.mp hg)
      rw [hp, if_pos (by simp only [NPOS, decide_eq_true_eq]; omega)]; rfl
  | erase k =>
    obtain ⟨h1, h2⟩ := h.erase L (k := k) hop
    cases hg : m.get k with
    | some x =>
      obtain ⟨t', i, hi, ei, e1, e2⟩ := h2 x ((ha.get k x).mp hg)
      have hp : l.Perm ((k, x) :: l.eraseIdx i) := by rw [← ei]; exact (getElem_cons_eraseIdx hi).symm
      exact ⟨t', _, by simp [BTab.step, e1, FMap.step, hg], e2, ha.del hp h.nodup⟩
    | none =>
      have hn := ha.none.mp hg
      refine ⟨t, l, by simp [BTab.step, h1 hn, FMap.step, hg], h, ?_⟩
      rw [show (m.step (fun v => v % 2 ^ c.vbits) (.erase k)).1 = m.del k from rfl, ha.del_absent hn]; exact ha
  | size => exact ⟨t, l, by simp only [BTab.step, FMap.step, h.elems, ha.size], h, ha⟩
  | empty => exact ⟨t, l, by simp only [BTab.step, FMap.step, h.elems, ha.size], h, ha⟩
  | reserve n => exact absurd hop (by simp [BtValid])
  | shrink =>
    obtain ⟨t', h1, h2, _⟩ := h.shrink L
    exact ⟨t', l, by simp [BTab.step, h1, FMap.step], h2, ha⟩
  | clear => exact ⟨_, [], rfl, BtRep.clear L h.width h.len, Abs.empty⟩

/-- the number of elements never exceeds `n` -/
def Fits (tr : Nat → Nat) (n : Nat) (m : FMap) : List MapOp → Prop
  | [] => True
  | op :: ops => (m.step tr op).1.size ≤ n ∧ Fits tr n (m.step tr op).1 ops

instance (tr : Nat → Nat) (n : Nat) : ∀ (ops : List MapOp) (m : FMap), Decidable (Fits tr n m ops)
  | [], _ => isTrue trivial
  | op :: ops, m => by
    unfold Fits
    have := instDecidableFits tr n ops (m.step tr op).1
    infer_instance

theorem FMap.step_size (tr : Nat → Nat) (m : FMap) (op : MapOp) : (m.step tr op).1.size ≤ m.size + 1 := by
  cases op with
  | insert k v | get k => simp only [FMap.step]; split <;> simp only [FMap.put] <;> (try split) <;> omega
  | assign k v => simp only [FMap.step, FMap.put]; split <;> omega
  | find k => simp only [FMap.step]; split <;> simp only <;> omega
  | erase k => simp only [FMap.step, FMap.del]; split <;> omega
  | clear => simp only [FMap.step, FMap.empty]; omega
  | _ => simp only [FMap.step]; omega

/-- there are at most as many elements as calls -/
theorem fits_of_length {tr : Nat → Nat} {n : Nat} : ∀ {ops : List MapOp} {m : FMap}, m.size + ops.length ≤ n → Fits tr n m ops := by
  intro ops
  induction ops with
  | nil => intro m _; trivial
  | cons op ops ih =>
    intro m h
    have := FMap.step_size tr m op
    simp only [List.length_cons] at h
    exact ⟨by omega, ih (by omega)⟩

theorem FMap.after_append (tr : Nat → Nat) : ∀ (ops ops' : List MapOp) (m : FMap), m.after tr (ops ++ ops') = (m.after tr ops).after tr ops' := by
  intro ops
  induction ops with
  | nil => intro ops' m; rfl
  | cons op ops ih => intro ops' m; exact ih ops' _

theorem BTab.run_append {A VB : Type} (c : BtCfg A VB) : ∀ (ops ops' : List MapOp) {t t' : BTab A VB} {as : List Ans}, t.run c ops = .ok (t', as) →
    t.run c (ops ++ ops') = (t'.run c ops').map (fun r => (r.1, as ++ r.2)) := by
  intro ops
  induction ops with
  | nil =>
    intro ops' t t' as h
    simp only [BTab.run, Except.ok.injEq, Prod.mk.injEq] at h
    obtain ⟨rfl, rfl⟩ := h
    cases hr : t.run c ops' <;> simp [hr, Except.map]
  | cons op ops ih =>
    intro ops' t t' as h
    simp only [BTab.run] at h
    cases h1 : t.step c op with
    | error e => rw [h1] at h; cases h
    | ok r =>
      rw [h1, ok_bind] at h
      cases h2 : r.1.run c ops with
      | error e => rw [h2] at h; cases h
      | ok q =>
        rw [h2, ok_bind, pure_eq_ok, Except.ok.injEq, Prod.mk.injEq] at h
        obtain ⟨rfl, rfl⟩ := h
        simp only [List.cons_append, BTab.run, h1, ok_bind, ih ops' h2]
        cases hr : q.1.run c ops' <;> rfl

theorem BtRep.run (L : BtLaws c kw M) : ∀ (ops : List MapOp) {t : BTab A VB} {l : List (Nat × Nat)} {m : FMap},
    BtRep c kw M t l → Abs l m → (∀ op ∈ ops, BtValid kw op) → Fits (fun v => v % 2 ^ c.vbits) (btMax c.strat) m ops →
    ∃ t' l', t.run c ops = .ok (t', m.run (fun v => v % 2 ^ c.vbits) ops) ∧ BtRep c kw M t' l' ∧
      Abs l' (m.after (fun v => v % 2 ^ c.vbits) ops) := by
  intro ops
  induction ops with
  | nil => intro t l m h ha _ _; exact ⟨t, l, rfl, h, ha⟩
  | cons op ops ih =>
    intro t l m h ha hops hfit
    obtain ⟨t1, l1, h1, h2, h3⟩ := h.step L ha op (hops op (by simp)) hfit.1
    obtain ⟨t2, l2, g1, g2, g3⟩ := ih h2 h3 (fun op' hop' => hops op' (by simp [hop'])) hfit.2
    refine ⟨t2, l2, ?_, g2, g3⟩
    simp only [BTab.run, h1, ok_bind, g1]; rfl

theorem BtRep.new (L : BtLaws c kw M) : BtRep c kw M (BTab.new c kw) [] where
  width := rfl
  elems := rfl
  le := Nat.zero_le _
  nodup := by simp
  key := by simp
  len := fun _ => Nat.zero_le _
  mem := .inl ⟨rfl, L.opt.empty, L.vopt.empty⟩

/-! ## Iteration -/

theorem BtRep.visit (L : BtLaws c kw M) {t : BTab A VB} {l : List (Nat × Nat)} (h : BtRep c kw M t l) :
    ∀ n i, i + n = l.length → t.visit c (n + 1) i l[i]? = .ok (l.drop i) := by
  have hmax := btMax_lt c.strat
  have hle := h.le
  intro n
  induction n with
  | zero =>
    intro i hi
    simp only [BTab.visit, h.navEq]
    rw [if_pos (by simp; omega), List.drop_of_length_le (by omega)]; rfl
  | succ n ih =>
    intro i hi
    have hlt : i < l.length := by omega
    have e : (i + 1) % W64 = i + 1 := Nat.mod_eq_of_lt (by have : W64 = 18446744073709551616 := rfl; omega)
    rw [BTab.visit]
    simp only [h.navEq]
    rw [if_neg (by simp; omega), List.getElem?_eq_getElem hlt, Option.elim_some, ok_bind, h.elems, ddcheck_ok hlt, ok_bind, e, h.iter L, ok_bind,
      ih (i + 1) (by omega), ok_bind, pure_eq_ok, List.drop_eq_getElem_cons hlt]

theorem BtRep.pairs (L : BtLaws c kw M) {t : BTab A VB} {l : List (Nat × Nat)} (h : BtRep c kw M t l) :
    t.pairs c = .ok l := by
  unfold BTab.pairs
  rw [h.iter L, ok_bind, h.elems, h.visit L l.length 0 (by omega)]
  rfl

theorem BtRep.visitBack (L : BtLaws c kw M) {t : BTab A VB} {l : List (Nat × Nat)} (h : BtRep c kw M t l) :
    ∀ n, n < l.length → t.visitBack c (n + 2) n = .ok (l.take (n + 1)).reverse := by
  have hmax := btMax_lt c.strat
  have hle := h.le
  have hW : W64 = 18446744073709551616 := rfl
  intro n
  induction n with
  | zero =>
    intro hi
    obtain ⟨r1, r2⟩ := h.read L (i := 0) hi
    rw [BTab.visitBack]
    simp only [h.navEq]
    rw [if_neg (by simp only [decide_eq_true_eq]; omega), r1, ok_bind, r2, ok_bind, h.elems, ddcheck_ok hi, ok_bind]
    have e : (0 + W64 - 1) % W64 = NPOS := by decide
    rw [e, BTab.visitBack]
    simp only [h.navEq]
    rw [if_pos (by simp only [NPOS, decide_eq_true_eq]; omega)]
    simp only [pure_eq_ok, ok_bind]
    cases l with
    | nil => simp at hi
    | cons a l => rfl
  | succ n ih =>
    intro hi
    obtain ⟨r1, r2⟩ := h.read L (i := n + 1) hi
    have e : (n + 1 + W64 - 1) % W64 = n := by
      rw [show n + 1 + W64 - 1 = n + W64 by omega, Nat.add_mod_right, Nat.mod_eq_of_lt (by omega)]
    rw [BTab.visitBack]
    simp only [h.navEq]
    rw [if_neg (by simp; omega), r1, ok_bind, r2, ok_bind, h.elems, ddcheck_ok hi, ok_bind, e, ih (by omega), ok_bind, pure_eq_ok]
    rw [List.take_succ_eq_append_getElem hi, List.reverse_append]
    rfl

theorem BtRep.pairsBack (L : BtLaws c kw M) {t : BTab A VB} {l : List (Nat × Nat)} (h : BtRep c kw M t l) :
    t.pairsBack c = .ok l.reverse := by
  have hmax := btMax_lt c.strat
  have hle := h.le
  unfold BTab.pairsBack
  rw [h.elems]
  by_cases hz : l.length = 0
  · rw [List.eq_nil_of_length_eq_zero hz]
    rw [BTab.visitBack]
    simp only [h.navEq, hz]
    rfl
  · have e : (l.length + 2 ^ 32 - 1) % 2 ^ 32 = l.length - 1 := by
      rw [show l.length + 2 ^ 32 - 1 = (l.length - 1) + 2 ^ 32 by omega, Nat.add_mod_right, Nat.mod_eq_of_lt (by omega)]
    have := h.visitBack L (l.length - 1) (by omega)
    rw [show l.length - 1 + 1 = l.length by omega, List.take_length] at this
    rw [e, show l.length + 1 = l.length - 1 + 2 by omega]
    exact this

end SC
