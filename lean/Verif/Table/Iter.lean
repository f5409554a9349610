import Verif.Table.Access
/-!
# Navigators and iterators (iterator.hpp) and the functions that create them

The model covers `separate_chaining_navigator` and `separate_chaining_iterator`.  The latter differs by caching the pair
it refers to (iterator.hpp:150-166, 168-176); as long as the table is not modified while the iterator is used, the
cached pair is what `key()` and `value()` return.
-/
namespace SC
variable {S O : Type}

/-- The loop `while(bucket < bucket_count() && bucket_size(bucket) == 0) ++bucket`, started at `b`; the first argument is
`bucket_count() - b`. -/
def Tab.scanUp (g : Cfg S O) (t : Tab S O) : Nat → Nat → Res Nat
  | 0, b => .ok b
  | f + 1, b => do
    let sz ← g.ops.size t.store (t.dim g) b
    if sz = 0 then t.scanUp g f (b + 1) else return b

/-- `begin_nav()`, `cbegin_nav()`, `begin()`, `cbegin()`: sep:488-533, cmp:365-402, grp:1070-1097 (see `Grp` for the
form of the loop there) -/
def Tab.beginNav (g : Cfg S O) (t : Tab S O) : Res Nav := do
  let b ← t.scanUp g t.bucketCount 0
  if b < t.bucketCount then return ⟨b, 0⟩
  if 0 < g.ov.size t.ovf then return ⟨t.bucketCount, 0⟩
  return Nav.end_

/-- `operator++`, iterator.hpp:84-100 -/
def Tab.next (g : Cfg S O) (t : Tab S O) (n : Nav) : Res Nav :=
  if 0 < g.ov.size t.ovf ∧ n.bucket = t.bucketCount then .ok { n with pos := g.ov.nextPosition t.ovf n.pos }
  else do
    ddcheck g.debug (n.bucket < t.bucketCount)
    let sz ← g.ops.size t.store (t.dim g) n.bucket
    if sz ≤ (n.pos + 1) % W64 then
      let b ← t.scanUp g (t.bucketCount - (n.bucket + 1)) (n.bucket + 1)
      return ⟨b, 0⟩
    return { n with pos := n.pos + 1 }

/-- The loop `do --bucket while(bucket < bucket_count() && bucket_size(bucket) == 0)`, iterator.hpp:116-118, started at
`b ≤ bucket_count()`; below 0 the counter wraps around to `2^64-1`. -/
def Tab.scanDown (g : Cfg S O) (t : Tab S O) : Nat → Res Nat
  | 0 => .ok NPOS
  | b + 1 => do
    let sz ← g.ops.size t.store (t.dim g) b
    if sz = 0 then t.scanDown g b else return b

/-- `operator--`, iterator.hpp:101-124 -/
def Tab.prev (g : Cfg S O) (t : Tab S O) (n : Nav) : Res Nav :=
  if 0 < g.ov.size t.ovf ∧ n.bucket = t.bucketCount then
    if 0 < n.pos then .ok { n with pos := g.ov.previousPosition t.ovf n.pos }
    else do
      let b := (n.bucket + W64 - 1) % W64
      let sz ← g.ops.size t.store (t.dim g) b
      return ⟨b, (min n.pos sz + W64 - 1) % W64⟩
  else do
    ddcheck g.debug (n.bucket < t.bucketCount)
    let sz ← (if 0 < n.pos then g.ops.size t.store (t.dim g) n.bucket else .ok 0 : Res Nat)
    if 0 < sz then return { n with pos := min n.pos sz - 1 }
    let b ← t.scanDown g n.bucket
    if b < t.bucketCount then
      let sz ← g.ops.size t.store (t.dim g) b
      ddcheck g.debug (sz ≠ 0)
      return ⟨b, sz - 1⟩
    return { n with bucket := b }

/-- The loop of `rbegin_nav()`, sep:473-477, cmp:350-354: `for(size_t bucket = bucket_count()-1; bucket >= 0; --bucket)`.
The condition always holds; after bucket 0 the counter is `2^64-1` and `m_bucketsizes[bucket]` is out of bounds. -/
def Tab.rscan (g : Cfg S O) (t : Tab S O) : Nat → Res Nav
  | 0 => .error .oob
  | b + 1 => do
    let sz ← g.ops.size t.store (t.dim g) b
    if 0 < sz then return ⟨b, sz - 1⟩ else t.rscan g b

/-- `rbegin_nav()`, sep:469-479, cmp:347-356 (grp:1036-1061 is different, see `Grp`) -/
def Tab.rbeginNav (g : Cfg S O) (t : Tab S O) : Res Nav :=
  if 0 < g.ov.size t.ovf then .ok ⟨t.bucketCount, g.ov.size t.ovf⟩
  else if t.bucketCount = 0 then .ok Nav.end_
  else t.rscan g t.bucketCount

/-- the loop `for(auto it = n; it != end_nav(); ++it)` of a user, collecting `it.key()` and `it.value()`; the first
argument bounds the number of tests of the condition -/
def Tab.visit (g : Cfg S O) (t : Tab S O) : Nat → Nav → Res (List (Nat × Nat))
  | 0, _ => .error .fuel
  | f + 1, n => do
    let e ← t.navEq g n Nav.end_
    if e then return []
    let k ← t.keyAt g n
    let v ← t.valueAt g n
    let n ← t.next g n
    let l ← t.visit g f n
    return (k, v) :: l

/-- the loop `for(auto it = n; it != rend_nav(); --it)` -/
def Tab.visitBack (g : Cfg S O) (t : Tab S O) : Nat → Nav → Res (List (Nat × Nat))
  | 0, _ => .error .fuel
  | f + 1, n => do
    let e ← t.navEq g n Nav.end_
    if e then return []
    let k ← t.keyAt g n
    let v ← t.valueAt g n
    let n ← t.prev g n
    let l ← t.visitBack g f n
    return (k, v) :: l

/-- the loop `for(auto it = n; it != rend_nav(); --it) { ...; erase(it); }` -/
def Tab.drain (g : Cfg S O) : Nat → Tab S O → Nav → Res (Tab S O × List (Nat × Nat))
  | 0, _, _ => .error .fuel
  | f + 1, t, n => do
    let e ← t.navEq g n Nav.end_
    if e then return (t, [])
    let k ← t.keyAt g n
    let v ← t.valueAt g n
    let (t, _) ← t.eraseNav g n
    let n ← t.prev g n
    let (t, l) ← Tab.drain g f t n
    return (t, (k, v) :: l)

/-! ## Proofs, for an empty overflow table -/

variable {g : Cfg S O} {P : Par S O}

/-- the pairs in the buckets `b`, `b+1`, ..., `b+n-1` -/
def entsFrom (H : HashMapping) (tb : Nat) (c : Cont) (b n : Nat) : List (Nat × Nat) :=
  (List.range' b n).flatMap (fun b => bEnts H tb b (c b))

theorem entsFrom_all {H : HashMapping} {tb : Nat} {c : Cont} : entsFrom H tb c 0 (2 ^ tb) = stored H tb c := by
  unfold entsFrom stored; rw [List.range_eq_range']

theorem entsFrom_succ {H : HashMapping} {tb : Nat} {c : Cont} {b n : Nat} :
    entsFrom H tb c b (n + 1) = bEnts H tb b (c b) ++ entsFrom H tb c (b + 1) n := by
  unfold entsFrom; rw [List.range'_succ]; rfl

theorem entsFrom_last {H : HashMapping} {tb : Nat} {c : Cont} {n : Nat} :
    entsFrom H tb c 0 (n + 1) = entsFrom H tb c 0 n ++ bEnts H tb n (c n) := by
  unfold entsFrom; rw [List.range'_concat]; simp [List.flatMap_append]

theorem scanUp_ok (L : Laws g P) {t : Tab S O} {c : Cont} {o : List (Nat × Nat × Nat)} {full : Nat → Bool}
    (h : Live g P t c o full) : ∀ (n b : Nat), b + n = 2 ^ t.tb → ∃ b', t.scanUp g n b = .ok b' ∧ b' ≤ 2 ^ t.tb ∧
      (b' < 2 ^ t.tb → c b' ≠ []) ∧ entsFrom (g.hash P.kw) t.tb c b n = entsFrom (g.hash P.kw) t.tb c b' (2 ^ t.tb - b') := by
  intro n
  induction n with
  | zero =>
    intro b hb
    exact ⟨b, rfl, by omega, by omega, by rw [show 2 ^ t.tb - b = 0 by omega]⟩
  | succ n ih =>
    intro b hb
    have hs := L.store.size _ _ _ b (h.good L) h.rep (show b < 2 ^ t.tb by omega)
    by_cases hc : c b = []
    · obtain ⟨b', h1, h2, h3, h4⟩ := ih (b + 1) (by omega)
      refine ⟨b', ?_, h2, h3, ?_⟩
      · simp only [Tab.scanUp, hs, ok_bind, hc, List.length_nil, if_true, h1]
      · rw [entsFrom_succ, h4, hc]; rfl
    · have : (c b).length ≠ 0 := fun e => hc (List.eq_nil_of_length_eq_zero e)
      exact ⟨b, by simp only [Tab.scanUp, hs, ok_bind, if_neg this]; rfl, by omega, fun _ => hc,
        by rw [show 2 ^ t.tb - b = n + 1 by omega]⟩

theorem navEq_false {t : Tab S O} (ht : t.tb < 64) {n : Nav} (h : t.invalid g n = .ok false) :
    t.navEq g n Nav.end_ = .ok false := by
  simp [Tab.navEq, invalid_end ht, h]

theorem navEq_true {t : Tab S O} (ht : t.tb < 64) {n : Nav} (h : t.invalid g n = .ok true) :
    t.navEq g n Nav.end_ = .ok true := by
  simp [Tab.navEq, invalid_end ht, h]

theorem invalid_beyond {t : Tab S O} (ho : g.ov.size t.ovf = 0) {n : Nav} (h : t.bucketCount ≤ n.bucket) :
    t.invalid g n = .ok true := by
  simp [Tab.invalid, ho, h]

theorem Live.tb_lt (L : Laws g P) {t : Tab S O} {c : Cont} {o : List (Nat × Nat × Nat)} {full : Nat → Bool}
    (h : Live g P t c o full) : t.tb < 64 := Nat.lt_of_le_of_lt h.hi L.hi_lt

/-- forward loop from an entry -/
theorem visit_ok (L : Laws g P) {t : Tab S O} {c : Cont} {full : Nat → Bool} (h : Live g P t c [] full) :
    ∀ (f : Nat) (b i : Nat), b < 2 ^ t.tb → (hi : i < (c b).length) →
    ((bEnts (g.hash P.kw) t.tb b (c b)).drop i ++ entsFrom (g.hash P.kw) t.tb c (b + 1) (2 ^ t.tb - (b + 1))).length < f →
    t.visit g f ⟨b, i⟩ = .ok ((bEnts (g.hash P.kw) t.tb b (c b)).drop i ++
      entsFrom (g.hash P.kw) t.tb c (b + 1) (2 ^ t.tb - (b + 1))) := by
  have ho : g.ov.size t.ovf = 0 := by rw [h.osize L]; rfl
  have hbc := h.bc L
  intro f
  induction f with
  | zero => intro b i _ _ hf; omega
  | succ f ih =>
    intro b i hb hi hf
    obtain ⟨r1, r2, r3⟩ := h.loc_read L (h.loc L hb hi)
    have hsz := L.store.size _ _ _ b (h.good L) h.rep hb
    have hlen := L.store.len _ _ _ b (h.good L) h.rep hb
    have hlt : i + 1 < W64 := by show _ < 2 ^ 64; have : NPOS = 2 ^ 64 - 1 := rfl; omega
    have hd : (bEnts (g.hash P.kw) t.tb b (c b)).drop i =
        (invKey (g.hash P.kw) t.tb b (c b)[i].1, (c b)[i].2) :: (bEnts (g.hash P.kw) t.tb b (c b)).drop (i + 1) := by
      rw [List.drop_eq_getElem_cons (by simpa [bEnts] using hi)]
      simp [bEnts]
    rw [hd] at hf ⊢
    simp only [Tab.visit, navEq_false (h.tb_lt L) r3, ok_bind, r1, r2]
    have hnext : t.next g ⟨b, i⟩ = if (c b).length ≤ i + 1 then (do
        let b ← t.scanUp g (t.bucketCount - (b + 1)) (b + 1)
        return ⟨b, 0⟩) else .ok ⟨b, i + 1⟩ := by
      simp only [Tab.next, ho, Nat.lt_irrefl, false_and, if_false, hbc, ddcheck_ok hb, hsz, ok_bind, Nat.mod_eq_of_lt hlt]
      rfl
    rw [hnext]
    by_cases hl : (c b).length ≤ i + 1
    · rw [if_pos hl]
      have hnil : (bEnts (g.hash P.kw) t.tb b (c b)).drop (i + 1) = [] := by
        apply List.drop_eq_nil_of_le; simp only [bEnts, List.length_map]; omega
      rw [hnil] at hf ⊢
      obtain ⟨b', s1, s2, s3, s4⟩ := scanUp_ok L h (2 ^ t.tb - (b + 1)) (b + 1) (by omega)
      rw [hbc, s1]
      rw [s4] at hf ⊢
      simp only [ok_bind, List.cons_append, List.nil_append, pure_eq_ok]
      by_cases hb' : b' < 2 ^ t.tb
      · have hne : 0 < (c b').length := List.length_pos_iff.mpr (s3 hb')
        have e : entsFrom (g.hash P.kw) t.tb c b' (2 ^ t.tb - b') = (bEnts (g.hash P.kw) t.tb b' (c b')).drop 0 ++
            entsFrom (g.hash P.kw) t.tb c (b' + 1) (2 ^ t.tb - (b' + 1)) := by
          rw [show 2 ^ t.tb - b' = (2 ^ t.tb - (b' + 1)) + 1 by omega, entsFrom_succ]; simp
        rw [e] at hf ⊢
        rw [ih b' 0 hb' hne (by simp only [List.cons_append, List.nil_append, List.length_cons] at hf; omega)]
        rfl
      · have : b' = 2 ^ t.tb := by omega
        subst this
        have hf1 : 1 ≤ f := by simp at hf; omega
        obtain ⟨f', rfl⟩ : ∃ f', f = f' + 1 := ⟨f - 1, by omega⟩
        have : entsFrom (g.hash P.kw) t.tb c (2 ^ t.tb) (2 ^ t.tb - 2 ^ t.tb) = [] := by simp [entsFrom]
        rw [this]
        simp only [Tab.visit, navEq_true (h.tb_lt L) (invalid_beyond ho (n := ⟨2 ^ t.tb, 0⟩) (by rw [hbc]; exact Nat.le_refl _)),
          ok_bind, if_true, pure_eq_ok]
        rfl
    · rw [if_neg hl]
      simp only [ok_bind]
      rw [ih b (i + 1) hb (by omega) (by simp only [List.cons_append, List.length_cons] at hf; omega)]
      rfl

/-- The forward loop visits the pairs in the order of the buckets. -/
theorem Live.visit_begin (L : Laws g P) {t : Tab S O} {c : Cont} {full : Nat → Bool} (h : Live g P t c [] full)
    {f : Nat} (hf : t.elems < f) :
    ∃ n, t.beginNav g = .ok n ∧ t.visit g f n = .ok (stored (g.hash P.kw) t.tb c) := by
  have ho : g.ov.size t.ovf = 0 := by rw [h.osize L]; rfl
  have hbc := h.bc L
  have he : t.elems = (stored (g.hash P.kw) t.tb c).length := by rw [h.elems]; simp [ents]
  obtain ⟨b, s1, s2, s3, s4⟩ := scanUp_ok L h (2 ^ t.tb) 0 (by omega)
  rw [entsFrom_all] at s4
  by_cases hb : b < 2 ^ t.tb
  · have hne : 0 < (c b).length := List.length_pos_iff.mpr (s3 hb)
    have e : entsFrom (g.hash P.kw) t.tb c b (2 ^ t.tb - b) = (bEnts (g.hash P.kw) t.tb b (c b)).drop 0 ++
        entsFrom (g.hash P.kw) t.tb c (b + 1) (2 ^ t.tb - (b + 1)) := by
      rw [show 2 ^ t.tb - b = (2 ^ t.tb - (b + 1)) + 1 by omega, entsFrom_succ]; simp
    refine ⟨⟨b, 0⟩, by simp only [Tab.beginNav, hbc, s1, ok_bind, if_pos hb]; rfl, ?_⟩
    rw [s4, e]
    exact visit_ok L h f b 0 hb hne (by rw [← e, ← s4, ← he]; exact hf)
  · obtain ⟨f', rfl⟩ : ∃ f', f = f' + 1 := ⟨f - 1, by omega⟩
    refine ⟨Nav.end_, by simp [Tab.beginNav, hbc, s1, if_neg hb, ho], ?_⟩
    rw [s4, show 2 ^ t.tb - b = 0 by omega]
    simp only [Tab.visit, navEq_true (h.tb_lt L) (invalid_end (h.tb_lt L)), ok_bind, if_true, pure_eq_ok]
    rfl

/-! ## backwards -/

theorem scanDown_ok (L : Laws g P) {t : Tab S O} {c : Cont} {o : List (Nat × Nat × Nat)} {full : Nat → Bool}
    (h : Live g P t c o full) : ∀ (b : Nat), b ≤ 2 ^ t.tb →
      (∃ b', t.scanDown g b = .ok b' ∧ b' < b ∧ c b' ≠ [] ∧ (∀ x, b' < x → x < b → c x = []) ∧
        entsFrom (g.hash P.kw) t.tb c 0 b = entsFrom (g.hash P.kw) t.tb c 0 (b' + 1)) ∨
      (t.scanDown g b = .ok NPOS ∧ (∀ x < b, c x = []) ∧ entsFrom (g.hash P.kw) t.tb c 0 b = []) := by
  intro b
  induction b with
  | zero => intro _; right; exact ⟨rfl, by omega, by simp [entsFrom]⟩
  | succ b ih =>
    intro hb
    have hs := L.store.size _ _ _ b (h.good L) h.rep (show b < 2 ^ t.tb by omega)
    by_cases hc : c b = []
    · have e : t.scanDown g (b + 1) = t.scanDown g b := by
        simp only [Tab.scanDown, hs, ok_bind, hc, List.length_nil, if_true]
      have e2 : entsFrom (g.hash P.kw) t.tb c 0 (b + 1) = entsFrom (g.hash P.kw) t.tb c 0 b := by
        rw [entsFrom_last, hc]; simp [bEnts]
      rw [e, e2]
      rcases ih (by omega) with ⟨b', h1, h2, h3, h4, h5⟩ | ⟨h1, h2, h3⟩
      · refine .inl ⟨b', h1, by omega, h3, ?_, h5⟩
        intro x hx1 hx2
        by_cases hxb : x = b
        · rw [hxb]; exact hc
        · exact h4 x hx1 (by omega)
      · refine .inr ⟨h1, ?_, h3⟩
        intro x hx
        by_cases hxb : x = b
        · rw [hxb]; exact hc
        · exact h2 x (by omega)
    · have : (c b).length ≠ 0 := fun e => hc (List.eq_nil_of_length_eq_zero e)
      left
      exact ⟨b, by simp only [Tab.scanDown, hs, ok_bind, if_neg this]; rfl, by omega, hc, by omega, rfl⟩

/-- `rbegin_nav()` of a table that is not empty -/
theorem rscan_ok (L : Laws g P) {t : Tab S O} {c : Cont} {o : List (Nat × Nat × Nat)} {full : Nat → Bool}
    (h : Live g P t c o full) : ∀ (b : Nat), b ≤ 2 ^ t.tb → entsFrom (g.hash P.kw) t.tb c 0 b ≠ [] →
      ∃ b', t.rscan g b = .ok ⟨b', (c b').length - 1⟩ ∧ b' < b ∧ c b' ≠ [] ∧ (∀ x, b' < x → x < b → c x = []) ∧
        entsFrom (g.hash P.kw) t.tb c 0 b = entsFrom (g.hash P.kw) t.tb c 0 (b' + 1) := by
  intro b
  induction b with
  | zero => intro _ hne; exact absurd (by simp [entsFrom]) hne
  | succ b ih =>
    intro hb hne
    have hs := L.store.size _ _ _ b (h.good L) h.rep (show b < 2 ^ t.tb by omega)
    by_cases hc : c b = []
    · have e2 : entsFrom (g.hash P.kw) t.tb c 0 (b + 1) = entsFrom (g.hash P.kw) t.tb c 0 b := by
        rw [entsFrom_last, hc]; simp [bEnts]
      rw [e2] at hne ⊢
      obtain ⟨b', h1, h2, h3, h4, h5⟩ := ih (by omega) hne
      refine ⟨b', ?_, by omega, h3, ?_, h5⟩
      · simp only [Tab.rscan, hs, ok_bind, hc, List.length_nil, Nat.lt_irrefl, if_false, h1]
      · intro x hx1 hx2
        by_cases hxb : x = b
        · rw [hxb]; exact hc
        · exact h4 x hx1 (by omega)
    · have : 0 < (c b).length := List.length_pos_iff.mpr hc
      exact ⟨b, by simp only [Tab.rscan, hs, ok_bind, if_pos this]; rfl, by omega, hc, by omega, rfl⟩

theorem rscan_empty (L : Laws g P) {t : Tab S O} {c : Cont} {o : List (Nat × Nat × Nat)} {full : Nat → Bool}
    (h : Live g P t c o full) : ∀ (b : Nat), b ≤ 2 ^ t.tb → (∀ x < b, c x = []) → t.rscan g b = .error .oob := by
  intro b
  induction b with
  | zero => intro _ _; rfl
  | succ b ih =>
    intro hb hc
    have hs := L.store.size _ _ _ b (h.good L) h.rep (show b < 2 ^ t.tb by omega)
    simp only [Tab.rscan, hs, ok_bind, hc b (by omega), List.length_nil, Nat.lt_irrefl, if_false]
    exact ih (by omega) (fun x hx => hc x (by omega))

/-- pairs in front of and including an entry -/
def entsUpTo (H : HashMapping) (tb : Nat) (c : Cont) (b i : Nat) : List (Nat × Nat) :=
  entsFrom H tb c 0 b ++ (bEnts H tb b (c b)).take (i + 1)

theorem entsUpTo_last {H : HashMapping} {tb : Nat} {c : Cont} {b i : Nat} (hi : i + 1 = (c b).length) :
    entsUpTo H tb c b i = entsFrom H tb c 0 (b + 1) := by
  unfold entsUpTo
  rw [entsFrom_last, List.take_of_length_le (by simp only [bEnts, List.length_map]; omega)]

/-- where `--` leads -/
theorem prev_ok (L : Laws g P) {t : Tab S O} {c : Cont} {full : Nat → Bool} (h : Live g P t c [] full)
    {b i : Nat} (hb : b < 2 ^ t.tb) (hi : i ≤ (c b).length) :
    (∃ b' i', t.prev g ⟨b, i⟩ = .ok ⟨b', i'⟩ ∧ b' ≤ b ∧ i' < (c b').length ∧
      entsFrom (g.hash P.kw) t.tb c 0 b ++ (bEnts (g.hash P.kw) t.tb b (c b)).take i = entsUpTo (g.hash P.kw) t.tb c b' i' ∧
      (∀ x, b' < x → x < b → c x = []) ∧ (b' < b → i = 0 ∧ i' + 1 = (c b').length) ∧ (b' = b → i' + 1 = i)) ∨
    (∃ i', t.prev g ⟨b, i⟩ = .ok ⟨NPOS, i'⟩ ∧ i = 0 ∧ (∀ x < b, c x = []) ∧
      entsFrom (g.hash P.kw) t.tb c 0 b ++ (bEnts (g.hash P.kw) t.tb b (c b)).take i = []) := by
  have ho : g.ov.size t.ovf = 0 := by rw [h.osize L]; rfl
  have hbc := h.bc L
  have hsz := L.store.size _ _ _ b (h.good L) h.rep hb
  have hN : ¬ NPOS < 2 ^ t.tb := by
    have : 2 ^ t.tb ≤ 2 ^ 63 := Nat.pow_le_pow_right (by omega) (by have := h.tb_lt L; omega)
    have : (2 : Nat) ^ 63 < NPOS := by decide
    omega
  by_cases h0 : 0 < i
  · left
    refine ⟨b, i - 1, ?_, Nat.le_refl _, by omega, ?_, by omega, by omega, by omega⟩
    · simp only [Tab.prev, ho, Nat.lt_irrefl, false_and, if_false, hbc, ddcheck_ok hb, if_pos h0, hsz, ok_bind,
        if_pos (show 0 < (c b).length by omega), Nat.min_eq_left hi]
      rfl
    · unfold entsUpTo; rw [show i - 1 + 1 = i by omega]
  · have : i = 0 := by omega
    subst this
    rcases scanDown_ok L h b (by omega) with ⟨b', h1, h2, h3, h4, h5⟩ | ⟨h1, h2, h3⟩
    · left
      have hsz' := L.store.size _ _ _ b' (h.good L) h.rep (show b' < 2 ^ t.tb by omega)
      have hpos : 0 < (c b').length := List.length_pos_iff.mpr h3
      refine ⟨b', (c b').length - 1, ?_, by omega, by omega, ?_, h4, fun _ => ⟨rfl, by omega⟩, by omega⟩
      · simp only [Tab.prev, ho, Nat.lt_irrefl, false_and, if_false, ok_bind, h1, hbc, ddcheck_ok hb, ddcheck_ok (show (c b').length ≠ 0 by omega),
          if_pos (show b' < 2 ^ t.tb by omega), hsz', pure_eq_ok]
      · rw [entsUpTo_last (by omega), h5]; simp
    · right
      refine ⟨0, ?_, rfl, h2, ?_⟩
      · simp only [Tab.prev, ho, Nat.lt_irrefl, false_and, if_false, ok_bind, h1, hbc, ddcheck_ok hb, if_neg hN, pure_eq_ok]
      · rw [h3]; simp

theorem entsUpTo_step {H : HashMapping} {tb : Nat} {c : Cont} {b i : Nat} (hi : i < (c b).length) :
    entsUpTo H tb c b i = (entsFrom H tb c 0 b ++ (bEnts H tb b (c b)).take i) ++
      [(invKey H tb b (c b)[i].1, (c b)[i].2)] := by
  unfold entsUpTo
  rw [List.append_assoc]
  congr 1
  rw [List.take_succ_eq_append_getElem (by simpa [bEnts] using hi)]
  simp [bEnts]

theorem visitBack_end (L : Laws g P) {t : Tab S O} {c : Cont} {full : Nat → Bool} (h : Live g P t c [] full)
    {f i : Nat} (hf : 0 < f) : t.visitBack g f ⟨NPOS, i⟩ = .ok [] := by
  have ho : g.ov.size t.ovf = 0 := by rw [h.osize L]; rfl
  have : 2 ^ t.tb ≤ 2 ^ 63 := Nat.pow_le_pow_right (by omega) (by have := h.tb_lt L; omega)
  obtain ⟨f', rfl⟩ : ∃ f', f = f' + 1 := ⟨f - 1, by omega⟩
  have hi : t.invalid g ⟨NPOS, i⟩ = .ok true := invalid_beyond ho (by
    rw [h.bc L]; show 2 ^ t.tb ≤ NPOS; have : (2 : Nat) ^ 63 < NPOS := by decide
    omega)
  simp only [Tab.visitBack, navEq_true (h.tb_lt L) hi, ok_bind, if_true, pure_eq_ok]

theorem visitBack_ok (L : Laws g P) {t : Tab S O} {c : Cont} {full : Nat → Bool} (h : Live g P t c [] full) :
    ∀ (f : Nat) (b i : Nat), b < 2 ^ t.tb → (hi : i < (c b).length) →
    (entsUpTo (g.hash P.kw) t.tb c b i).length < f →
    t.visitBack g f ⟨b, i⟩ = .ok (entsUpTo (g.hash P.kw) t.tb c b i).reverse := by
  intro f
  induction f with
  | zero => intro b i _ _ hf; omega
  | succ f ih =>
    intro b i hb hi hf
    obtain ⟨r1, r2, r3⟩ := h.loc_read L (h.loc L hb hi)
    rw [entsUpTo_step hi] at hf ⊢
    rw [List.length_append, List.length_singleton] at hf
    rw [List.reverse_append, List.reverse_singleton]
    simp only [Tab.visitBack, navEq_false (h.tb_lt L) r3, ok_bind, r1, r2]
    rcases prev_ok L h hb (Nat.le_of_lt hi) with ⟨b', i', h1, h2, h3, h4, _⟩ | ⟨i', h1, h2, h3, h4⟩
    · rw [h1, h4]
      rw [h4] at hf
      simp only [ok_bind, ih b' i' (by omega) h3 (by omega)]
      rfl
    · rw [h1, h4]
      rw [h4] at hf
      simp only [ok_bind, visitBack_end L h (show 0 < f by omega)]
      rfl

/-- `rbegin_nav()` on a table with entries: the last entry -/
theorem Live.rbegin (L : Laws g P) {t : Tab S O} {c : Cont} {full : Nat → Bool} (h : Live g P t c [] full)
    (hne : t.elems ≠ 0) :
    ∃ b i, t.rbeginNav g = .ok ⟨b, i⟩ ∧ b < 2 ^ t.tb ∧ i + 1 = (c b).length ∧ (∀ x, b < x → x < 2 ^ t.tb → c x = []) ∧
      entsUpTo (g.hash P.kw) t.tb c b i = stored (g.hash P.kw) t.tb c := by
  have ho : g.ov.size t.ovf = 0 := by rw [h.osize L]; rfl
  have hbc := h.bc L
  have he : t.elems = (stored (g.hash P.kw) t.tb c).length := by rw [h.elems]; simp [ents]
  have hpos := Nat.two_pow_pos t.tb
  obtain ⟨b, h1, h2, h3, h4, h5⟩ := rscan_ok L h (2 ^ t.tb) (Nat.le_refl _) (by
    rw [entsFrom_all]; intro e; rw [e] at he; exact hne he)
  have hl : 0 < (c b).length := List.length_pos_iff.mpr h3
  refine ⟨b, (c b).length - 1, ?_, h2, by omega, h4, ?_⟩
  · simp only [Tab.rbeginNav, ho, Nat.lt_irrefl, if_false, hbc, if_neg (show ¬ 2 ^ t.tb = 0 by omega), h1]
  · rw [entsUpTo_last (by omega), ← h5, entsFrom_all]

/-- The backward loop visits the pairs in reverse order. -/
theorem Live.visit_rbegin (L : Laws g P) {t : Tab S O} {c : Cont} {full : Nat → Bool} (h : Live g P t c [] full)
    (hne : t.elems ≠ 0) {f : Nat} (hf : t.elems < f) :
    ∃ n, t.rbeginNav g = .ok n ∧ t.visitBack g f n = .ok (stored (g.hash P.kw) t.tb c).reverse := by
  obtain ⟨b, i, h1, h2, h3, h4, h5⟩ := h.rbegin L hne
  refine ⟨_, h1, ?_⟩
  rw [← h5]
  refine visitBack_ok L h f b i h2 (by omega) ?_
  rw [h5]
  have : t.elems = (stored (g.hash P.kw) t.tb c).length := by rw [h.elems]; simp [ents]
  omega

/-! ## process and delete -/

theorem entsFrom_congr {H : HashMapping} {tb : Nat} {c c' : Cont} {n : Nat} (h : ∀ b < n, c b = c' b) :
    entsFrom H tb c 0 n = entsFrom H tb c' 0 n := by
  unfold entsFrom
  rw [List.flatMap_def, List.flatMap_def]
  congr 1
  apply List.map_congr_left
  intro b hb
  have : b < n := by have := List.mem_range'_1.mp hb; omega
  rw [h b this]

theorem drain_end (L : Laws g P) {t : Tab S O} {c : Cont} {full : Nat → Bool} (h : Live g P t c [] full)
    {f i : Nat} (hf : 0 < f) : Tab.drain g f t ⟨NPOS, i⟩ = .ok (t, []) := by
  have ho : g.ov.size t.ovf = 0 := by rw [h.osize L]; rfl
  have : 2 ^ t.tb ≤ 2 ^ 63 := Nat.pow_le_pow_right (by omega) (by have := h.tb_lt L; omega)
  obtain ⟨f', rfl⟩ : ∃ f', f = f' + 1 := ⟨f - 1, by omega⟩
  have hi : t.invalid g ⟨NPOS, i⟩ = .ok true := invalid_beyond ho (by
    rw [h.bc L]; show 2 ^ t.tb ≤ NPOS; have : (2 : Nat) ^ 63 < NPOS := by decide
    omega)
  simp only [Tab.drain, navEq_true (h.tb_lt L) hi, ok_bind, if_true, pure_eq_ok]

/-- all entries behind the navigator have been erased -/
theorem drain_ok (L : Laws g P) : ∀ (f : Nat) (t : Tab S O) (c : Cont) (full : Nat → Bool) (b i : Nat),
    Live g P t c [] full → b < 2 ^ t.tb → (hi : i + 1 = (c b).length) → (∀ x, b < x → x < 2 ^ t.tb → c x = []) →
    t.elems < f →
    ∃ t', Tab.drain g f t ⟨b, i⟩ = .ok (t', (entsUpTo (g.hash P.kw) t.tb c b i).reverse) ∧
      Inv g P t' [] ∧ t'.tb = t.tb := by
  intro f
  induction f with
  | zero => intro t c full b i _ _ _ _ hf; omega
  | succ f ih =>
    intro t c full b i h hb hi hbeh hf
    have hi' : i < (c b).length := by omega
    obtain ⟨r1, r2, r3⟩ := h.loc_read L (h.loc L hb hi')
    obtain ⟨t1, e1, e2, e3⟩ := h.eraseAt L hb hi'
    have hlen1 : (upd c b ((c b).eraseIdx i) b).length = i := by
      rw [upd_same, List.length_eraseIdx_of_lt hi']; omega
    have htake : (upd c b ((c b).eraseIdx i)) b = (c b).take i := by
      rw [upd_same, List.eraseIdx_eq_take_drop_succ, List.drop_eq_nil_of_le (by omega), List.append_nil]
    have hel : t1.elems + 1 = t.elems := by
      have h1 := e2.elems
      have h2 := h.elems
      have h3 := (ents_erase (H := g.hash P.kw) (k := invKey (g.hash P.kw) t.tb b (c b)[i].1) c [] hb hi' rfl).length_eq
      rw [e3] at h1
      simp only [List.length_cons] at h3
      omega
    have hrest : entsFrom (g.hash P.kw) t1.tb (upd c b ((c b).eraseIdx i)) 0 b ++
        (bEnts (g.hash P.kw) t1.tb b (upd c b ((c b).eraseIdx i) b)).take i =
        entsFrom (g.hash P.kw) t.tb c 0 b ++ (bEnts (g.hash P.kw) t.tb b (c b)).take i := by
      rw [e3, entsFrom_congr (c' := c) (fun x hx => upd_other _ _ (by omega)), htake]
      simp [bEnts, List.map_take, List.take_take]
    rw [entsUpTo_step hi', List.reverse_append, List.reverse_singleton, ← hrest]
    simp only [Tab.drain, navEq_false (h.tb_lt L) r3, ok_bind, r1, r2, e1]
    rcases prev_ok L e2 (show b < 2 ^ t1.tb by rw [e3]; exact hb) (Nat.le_of_eq hlen1.symm) with
      ⟨b', i', h1, h2, h3, h4, h5, h6, h7⟩ | ⟨i', h1, h2, h3, h4⟩
    · rw [h1, h4]
      simp only [ok_bind]
      have hlast : i' + 1 = (upd c b ((c b).eraseIdx i) b').length := by
        by_cases hbb : b' = b
        · rw [hbb, hlen1]; exact h7 hbb
        · exact (h6 (by omega)).2
      obtain ⟨t', k1, k2, k3⟩ := ih t1 _ full b' i' e2 (by rw [e3]; omega) hlast (by
        intro x hx1 hx2
        by_cases hxb : x < b
        · exact h5 x hx1 hxb
        · by_cases hxe : x = b
          · subst hxe
            have := h6 (by omega)
            exact List.eq_nil_of_length_eq_zero (by rw [hlen1]; exact this.1)
          · rw [upd_other _ _ hxe]; exact hbeh x (by omega) (by rw [← e3]; exact hx2)) (by omega)
      rw [k1]
      exact ⟨t', rfl, k2, by rw [k3, e3]⟩
    · rw [h1, h4]
      simp only [ok_bind]
      have hz : t1.elems = 0 := by
        rw [e2.elems]
        have : stored (g.hash P.kw) t1.tb (upd c b ((c b).eraseIdx i)) = [] := by
          unfold stored
          rw [List.flatMap_eq_nil_iff]
          intro x hx
          have hx : x < 2 ^ t1.tb := by simpa using hx
          have : upd c b ((c b).eraseIdx i) x = [] := by
            by_cases hxb : x < b
            · exact h3 x hxb
            · by_cases hxe : x = b
              · subst hxe; exact List.eq_nil_of_length_eq_zero (by rw [hlen1]; exact h2)
              · rw [upd_other _ _ hxe]; exact hbeh x (by omega) (by rw [← e3]; exact hx)
          rw [this]; rfl
        simp [ents, this]
      rw [drain_end L e2 (show 0 < f by omega)]
      refine ⟨t1, rfl, .inr ⟨_, [], full, e2, ?_⟩, e3⟩
      have : (ents (g.hash P.kw) t1.tb (upd c b ((c b).eraseIdx i)) []) = [] :=
        List.eq_nil_of_length_eq_zero (by rw [← e2.elems, hz])
      rw [this]

theorem Live.drain_rbegin (L : Laws g P) {t : Tab S O} {c : Cont} {full : Nat → Bool} (h : Live g P t c [] full)
    (hne : t.elems ≠ 0) {f : Nat} (hf : t.elems < f) :
    ∃ n t', t.rbeginNav g = .ok n ∧ Tab.drain g f t n = .ok (t', (stored (g.hash P.kw) t.tb c).reverse) ∧
      Inv g P t' [] := by
  obtain ⟨b, i, h1, h2, h3, h4, h5⟩ := h.rbegin L hne
  obtain ⟨t', k1, k2, _⟩ := drain_ok L f t c full b i h h2 h3 h4 hf
  rw [h5] at k1
  exact ⟨_, t', h1, k1, k2⟩

end SC
