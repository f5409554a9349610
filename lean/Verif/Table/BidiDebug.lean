import Verif.Table.Bidi
/-!
# Navigators and iterators in debug builds
-/
namespace SC
variable {S O : Type}

/-- `operator*` and `operator->` of an iterator, iterator.hpp:168-176: `DDCHECK(*this != cend())`, then the cached pair -/
def Tab.deref (g : Cfg S O) (t : Tab S O) (it : Iter) : Res (Nat × Nat) := do
  if g.debug = true then
    let e ← t.navEq g it.nav Nav.end_
    ddcheck true (e = false)
  return it.pair

/-! ## What is expected -/

/-- The place after a sequence of steps in a list of `N` elements: an index, or no element (`none`).  From there no step is possible. -/
def Seq.walk (N : Nat) : Option Nat → List Bool → Option (Option Nat)
  | p, [] => some p
  | none, _ :: _ => none
  | some i, true :: ms => Seq.walk N (if i + 1 < N then some (i + 1) else none) ms
  | some i, false :: ms => Seq.walk N (if 0 < i then some (i - 1) else none) ms

/-- the same for an iterator, together with the index of the element it has read last -/
def Seq.iwalk (N : Nat) : Option Nat → Nat → List Bool → Option (Option Nat × Nat)
  | p, r, [] => some (p, r)
  | none, _, _ :: _ => none
  | some i, r, true :: ms => if i + 1 < N then Seq.iwalk N (some (i + 1)) (i + 1) ms else Seq.iwalk N none r ms
  | some i, r, false :: ms => Seq.iwalk N (if 0 < i then some (i - 1) else none) r ms

/-- the first element -/
def Seq.first (N : Nat) : Option Nat := if 0 < N then some 0 else none

/-- What each sequence of steps from `begin_nav()` leads to. -/
def DbgWalkSpec (g : Cfg S O) (t : Tab S O) : Prop :=
  ∃ l, t.pairs g = .ok l ∧ ∀ ms, match Seq.walk l.length (Seq.first l.length) ms with
    | none => t.beginSteps g ms = .error .exc
    | some none => ∃ n, t.beginSteps g ms = .ok n ∧ t.navEq g n Nav.end_ = .ok true
    | some (some j) => ∃ n e, t.beginSteps g ms = .ok n ∧ l[j]? = some e ∧ t.navEq g n Nav.end_ = .ok false ∧ t.keyAt g n = .ok e.1 ∧
        t.valueAt g n = .ok e.2

/-- What each sequence of steps from `begin()` leads to, and what `*it` gives there. -/
def DbgIterSpec (g : Cfg S O) (t : Tab S O) : Prop :=
  ∃ l, t.pairs g = .ok l ∧ ∀ ms, match Seq.iwalk l.length (Seq.first l.length) 0 ms with
    | none => t.beginIsteps g ms = .error .exc
    | some (none, _) => ∃ it, t.beginIsteps g ms = .ok it ∧ t.navEq g it.nav Nav.end_ = .ok true ∧ t.deref g it = .error .exc
    | some (some _, r) => ∃ it e, t.beginIsteps g ms = .ok it ∧ t.navEq g it.nav Nav.end_ = .ok false ∧ l[r]? = some e ∧ t.deref g it = .ok e

/-- a loop `for(it = begin(); it != end(); ++it)` that collects `*it` -/
def Tab.visitDeref (g : Cfg S O) (t : Tab S O) : Nat → Iter → Res (List (Nat × Nat))
  | 0, _ => .error .fuel
  | f + 1, it => do
    let e ← t.navEq g it.nav Nav.end_
    if e then return []
    let x ← t.deref g it
    let it' ← t.istep g it true
    let l ← t.visitDeref g f it'
    return x :: l

/-- a range-based `for` loop; unlike `Tab.rangeFor` with the assertions of `operator*` -/
def Tab.rangeDeref (g : Cfg S O) (t : Tab S O) : Res (List (Nat × Nat)) := do
  let n ← t.beginNav g
  let it ← t.iterator g n
  t.visitDeref g (t.size + 1) it

/-! ## Proofs -/

variable {g : Cfg S O} {P : Par S O}

/-- `n` is at the place `p` -/
def AtPlace (P : Par S O) (g : Cfg S O) (t : Tab S O) (c : Cont) (n : Nav) : Option Nat → Prop
  | some j => AtIdx P g t c n j ∧ j < (stored (g.hash P.kw) t.tb c).length
  | none => 2 ^ t.tb ≤ n.bucket

theorem AtIdx.place {t : Tab S O} {c : Cont} {n : Nav} {j : Nat} (htb : t.tb < 64) (h : AtIdx P g t c n j) :
    AtPlace P g t c n (if j < (stored (g.hash P.kw) t.tb c).length then some j else none) := by
  split
  · next hj => exact ⟨h, hj⟩
  · next hj =>
    rcases h with ⟨b, i, rfl, hb, hi, rfl⟩ | ⟨_, rfl | ⟨_, rfl⟩⟩
    · have := (List.getElem?_eq_some_iff.mp (stored_at (H := g.hash P.kw) hb hi)).1
      exact absurd this hj
    · exact Nat.le_refl _
    · show 2 ^ t.tb ≤ NPOS
      have : 2 ^ t.tb ≤ 2 ^ 63 := Nat.pow_le_pow_right (by omega) (by omega)
      have : (2 : Nat) ^ 63 < NPOS := by decide
      omega

theorem AtPlace.prev (L : Laws g P) {t : Tab S O} {c : Cont} {full : Nat → Bool} (h : Live g P t c [] full) {n : Nav} {j : Nat}
    (hn : AtPlace P g t c n (some j)) : ∃ n', t.prev g n = .ok n' ∧ AtPlace P g t c n' (if 0 < j then some (j - 1) else none) := by
  obtain ⟨hn, hj⟩ := hn
  rcases hn with ⟨b, i, rfl, hb, hi, rfl⟩ | ⟨hj', _⟩
  · rcases prev_ok L h hb (Nat.le_of_lt hi) with ⟨b', i', h1, h2, h3, h4, _⟩ | ⟨i', h1, h2, h3, h4⟩
    · have e := congrArg List.length h4
      unfold entsUpTo at e
      simp only [List.length_append, List.length_take, bEnts, List.length_map] at e
      refine ⟨_, h1, ?_⟩
      rw [if_pos (by omega)]
      exact ⟨.inl ⟨b', i', rfl, by omega, h3, by omega⟩, by omega⟩
    · have e := congrArg List.length h4
      simp only [List.length_append, List.length_take, bEnts, List.length_map, List.length_nil] at e
      refine ⟨_, h1, ?_⟩
      rw [if_neg (by omega)]
      have htb := h.tb_lt L
      show 2 ^ t.tb ≤ NPOS
      have : 2 ^ t.tb ≤ 2 ^ 63 := Nat.pow_le_pow_right (by omega) (by omega)
      have : (2 : Nat) ^ 63 < NPOS := by decide
      omega
  · omega

theorem AtPlace.next (L : Laws g P) {t : Tab S O} {c : Cont} {full : Nat → Bool} (h : Live g P t c [] full) {n : Nav} {j : Nat}
    (hn : AtPlace P g t c n (some j)) :
    ∃ n', t.next g n = .ok n' ∧ AtPlace P g t c n' (if j + 1 < (stored (g.hash P.kw) t.tb c).length then some (j + 1) else none) := by
  obtain ⟨n', h1, h2⟩ := hn.1.next L h hn.2
  exact ⟨n', h1, h2.place (h.tb_lt L)⟩

/-- beyond the elements every step fails -/
theorem step_beyond (hd : g.debug = true) {t : Tab S O} (ho : g.ov.size t.ovf = 0) {n : Nav} (hn : t.bucketCount ≤ n.bucket) (m : Bool) :
    t.nstep g n m = .error .exc := by
  have e : ddcheck true (n.bucket < t.bucketCount) = .error .exc := ddcheck_fails (by omega)
  cases m
  · simp only [Tab.nstep, Tab.prev, ho, Nat.lt_irrefl, false_and, if_false, hd, e, error_bind]
  · simp only [Tab.nstep, Tab.next, ho, Nat.lt_irrefl, false_and, if_false, hd, e, error_bind]

theorem AtPlace.steps (L : Laws g P) (hd : g.debug = true) {t : Tab S O} {c : Cont} {full : Nat → Bool} (h : Live g P t c [] full) :
    ∀ (ms : List Bool) (n : Nav) (p : Option Nat), AtPlace P g t c n p →
      match Seq.walk (stored (g.hash P.kw) t.tb c).length p ms with
      | none => t.nsteps g n ms = .error .exc
      | some q => ∃ n', t.nsteps g n ms = .ok n' ∧ AtPlace P g t c n' q := by
  intro ms
  induction ms with
  | nil => intro n p hn; exact ⟨n, rfl, hn⟩
  | cons m ms ih =>
    intro n p hn
    cases p with
    | none =>
      have ho : g.ov.size t.ovf = 0 := by rw [h.osize L]; rfl
      have := step_beyond hd ho (by rw [h.bc L]; exact hn) m
      simp only [Seq.walk, Tab.nsteps, this, error_bind]
    | some j =>
      cases m with
      | true =>
        obtain ⟨n', h1, h2⟩ := hn.next L h
        have := ih n' _ h2
        simp only [Seq.walk, Tab.nsteps, Tab.nstep, h1, ok_bind]
        exact this
      | false =>
        obtain ⟨n', h1, h2⟩ := hn.prev L h
        have := ih n' _ h2
        simp only [Seq.walk, Tab.nsteps, Tab.nstep, h1, ok_bind]
        exact this

theorem AtPlace.read (L : Laws g P) {t : Tab S O} {c : Cont} {full : Nat → Bool} (h : Live g P t c [] full) {n : Nav} {j : Nat}
    (hn : AtPlace P g t c n (some j)) :
    ∃ e, (stored (g.hash P.kw) t.tb c)[j]? = some e ∧ t.invalid g n = .ok false ∧ t.keyAt g n = .ok e.1 ∧ t.valueAt g n = .ok e.2 := by
  rcases hn.1.read L h with h' | ⟨h', _⟩
  · exact h'
  · have := hn.2; omega

theorem AtPlace.off (L : Laws g P) {t : Tab S O} {c : Cont} {full : Nat → Bool} (h : Live g P t c [] full) {n : Nav}
    (hn : AtPlace P g t c n none) : t.invalid g n = .ok true := by
  have ho : g.ov.size t.ovf = 0 := by rw [h.osize L]; rfl
  exact invalid_beyond ho (by rw [h.bc L]; exact hn)

theorem AtPlace.begin (L : Laws g P) {t : Tab S O} {c : Cont} {full : Nat → Bool} (h : Live g P t c [] full) :
    ∃ n, t.beginNav g = .ok n ∧ AtPlace P g t c n (Seq.first (stored (g.hash P.kw) t.tb c).length) := by
  obtain ⟨n, h1, h2⟩ := AtIdx.begin L h
  exact ⟨n, h1, h2.place (h.tb_lt L)⟩

theorem fact_dbgWalk (L : Laws g P) (hd : g.debug = true) (hno : NoOverflow P) {t : Tab S O} {m : FMap} (h : Sem g P t m) : DbgWalkSpec g t := by
  rcases h.bidi L hno with ⟨h1, h2, h3, h4⟩ | ⟨c, full, hl, h2⟩
  · refine ⟨[], h2, fun ms => ?_⟩
    cases ms with
    | nil => exact ⟨Nav.end_, by simp only [Tab.beginSteps, h3, ok_bind, Tab.nsteps], h4⟩
    | cons m ms =>
      have ho : g.ov.size t.ovf = 0 := by
        obtain ⟨l, h, _⟩ := h
        rcases h with ⟨_, _, _, _, _, _, _, _, n, full, h7⟩ | ⟨c, o, full, hl, _⟩
        · exact L.ovf.size _ _ _ _ h7
        · have := hl.tb_pos L; omega
      have hb : t.bucketCount ≤ Nav.end_.bucket := by simp [Tab.bucketCount, h1]
      show t.beginSteps g (m :: ms) = .error .exc
      simp only [Tab.beginSteps, h3, ok_bind, Tab.nsteps, step_beyond hd ho hb, error_bind]
  · refine ⟨_, h2, fun ms => ?_⟩
    obtain ⟨n, b1, b2⟩ := AtPlace.begin L hl
    have := AtPlace.steps L hd hl ms n _ b2
    split at this
    · next he => rw [he]; simp only [Tab.beginSteps, b1, ok_bind]; exact this
    · next q he =>
      rw [he]
      obtain ⟨n', s1, s2⟩ := this
      cases q with
      | none => exact ⟨n', by simp only [Tab.beginSteps, b1, ok_bind, s1], navEq_true (hl.tb_lt L) (s2.off L hl)⟩
      | some j =>
        obtain ⟨e, e1, e2, e3, e4⟩ := s2.read L hl
        exact ⟨n', e, by simp only [Tab.beginSteps, b1, ok_bind, s1], e1, navEq_false (hl.tb_lt L) e2, e3, e4⟩

/-! ## Iterators -/

theorem AtPlace.isteps (L : Laws g P) (hd : g.debug = true) {t : Tab S O} {c : Cont} {full : Nat → Bool} (h : Live g P t c [] full) :
    ∀ (ms : List Bool) (it : Iter) (p : Option Nat) (r : Nat), AtPlace P g t c it.nav p →
      (p.isSome → (stored (g.hash P.kw) t.tb c)[r]? = some it.pair) →
      match Seq.iwalk (stored (g.hash P.kw) t.tb c).length p r ms with
      | none => t.isteps g it ms = .error .exc
      | some (q, r') => ∃ it', t.isteps g it ms = .ok it' ∧ AtPlace P g t c it'.nav q ∧
          (q.isSome → (stored (g.hash P.kw) t.tb c)[r']? = some it'.pair) := by
  intro ms
  induction ms with
  | nil => intro it p r hn hr; exact ⟨it, rfl, hn, hr⟩
  | cons m ms ih =>
    intro it p r hn hr
    cases p with
    | none =>
      have ho : g.ov.size t.ovf = 0 := by rw [h.osize L]; rfl
      have := step_beyond hd ho (by rw [h.bc L]; exact hn) m
      cases m with
      | true => simp only [Tab.nstep] at this; simp only [Seq.iwalk, Tab.isteps, Tab.istep, this, error_bind]
      | false => simp only [Tab.nstep] at this; simp only [Seq.iwalk, Tab.isteps, Tab.istep, this, error_bind]
    | some j =>
      cases m with
      | true =>
        obtain ⟨n', h1, h2⟩ := hn.next L h
        simp only [Seq.iwalk, Tab.isteps, Tab.istep, h1, ok_bind]
        split at h2
        · next hlt =>
          obtain ⟨e, e1, e2, e3, e4⟩ := h2.read L h
          rw [if_pos hlt, refresh_valid e2 e3 e4, ok_bind]
          exact ih ⟨n', e.1, e.2⟩ _ _ h2 (fun _ => e1)
        · next hlt =>
          rw [if_neg hlt, refresh_invalid (h2.off L h), ok_bind]
          exact ih ⟨n', it.pair⟩ _ _ h2 (by simp)
      | false =>
        obtain ⟨n', h1, h2⟩ := hn.prev L h
        simp only [Seq.iwalk, Tab.isteps, Tab.istep, h1, ok_bind, pure_eq_ok]
        exact ih ⟨n', it.pair⟩ _ _ h2 (fun _ => hr rfl)

theorem fact_dbgIter (L : Laws g P) (hd : g.debug = true) (hno : NoOverflow P) {t : Tab S O} {m : FMap} (h : Sem g P t m) : DbgIterSpec g t := by
  have htb := h.tb_lt L
  have hderef : ∀ it e, t.navEq g it.nav Nav.end_ = .ok e → t.deref g it = if e then .error .exc else .ok it.pair := by
    intro it e he
    cases e <;> simp [Tab.deref, hd, he, ddcheck, error_bind]
  rcases h.bidi L hno with ⟨h1, h2, h3, h4⟩ | ⟨c, full, hl, h2⟩
  · refine ⟨[], h2, fun ms => ?_⟩
    have hi : t.iterator g Nav.end_ = .ok ⟨Nav.end_, (0, 0)⟩ := refresh_invalid (invalid_end htb)
    cases ms with
    | nil => exact ⟨⟨Nav.end_, (0, 0)⟩, by simp only [Tab.beginIsteps, h3, ok_bind, hi, Tab.isteps], h4, by rw [hderef _ _ h4]; rfl⟩
    | cons m ms =>
      have ho : g.ov.size t.ovf = 0 := by
        obtain ⟨l, h, _⟩ := h
        rcases h with ⟨_, _, _, _, _, _, _, _, n, full, h7⟩ | ⟨c, o, full, hl, _⟩
        · exact L.ovf.size _ _ _ _ h7
        · have := hl.tb_pos L; omega
      have hb : t.bucketCount ≤ Nav.end_.bucket := by simp [Tab.bucketCount, h1]
      have := step_beyond hd ho hb m
      show t.beginIsteps g (m :: ms) = .error .exc
      cases m with
      | true => simp only [Tab.nstep] at this; simp only [Tab.beginIsteps, h3, ok_bind, hi, Tab.isteps, Tab.istep, this, error_bind]
      | false => simp only [Tab.nstep] at this; simp only [Tab.beginIsteps, h3, ok_bind, hi, Tab.isteps, Tab.istep, this, error_bind]
  · refine ⟨_, h2, fun ms => ?_⟩
    obtain ⟨n, b1, b2⟩ := AtPlace.begin L hl
    obtain ⟨it, i1, i2, i3⟩ : ∃ it, t.iterator g n = .ok it ∧ it.nav = n ∧
        ((Seq.first (stored (g.hash P.kw) t.tb c).length).isSome → (stored (g.hash P.kw) t.tb c)[0]? = some it.pair) := by
      generalize hf : Seq.first (stored (g.hash P.kw) t.tb c).length = p at b2
      cases p with
      | none => exact ⟨_, refresh_invalid (b2.off L hl), rfl, by simp⟩
      | some j =>
        have : j = 0 := by unfold Seq.first at hf; split at hf <;> cases hf; rfl
        subst this
        obtain ⟨e, e1, e2, e3, e4⟩ := b2.read L hl
        exact ⟨_, refresh_valid e2 e3 e4, rfl, fun _ => e1⟩
    have := AtPlace.isteps L hd hl ms it _ 0 (by rw [i2]; exact b2) i3
    split at this
    · next he => rw [he]; simp only [Tab.beginIsteps, b1, i1, ok_bind]; exact this
    · next q r' he =>
      rw [he]
      obtain ⟨it', s1, s2, s3⟩ := this
      have s0 : t.beginIsteps g ms = .ok it' := by simp only [Tab.beginIsteps, b1, i1, ok_bind, s1]
      cases q with
      | none =>
        have := navEq_true (hl.tb_lt L) (s2.off L hl)
        exact ⟨it', s0, this, by rw [hderef _ _ this]; rfl⟩
      | some j =>
        obtain ⟨e, e1, e2, e3, e4⟩ := s2.read L hl
        have := navEq_false (hl.tb_lt L) e2
        exact ⟨it', _, s0, this, s3 rfl, by rw [hderef _ _ this]; rfl⟩

/-- the assertion holds wherever the condition of the loop holds -/
theorem visitDeref_eq {t : Tab S O} : ∀ (f : Nat) (it : Iter) (l : List (Nat × Nat)), t.visitRange g f it = .ok l → t.visitDeref g f it = .ok l := by
  intro f
  induction f with
  | zero => intro it l h; cases h
  | succ f ih =>
    intro it l h
    simp only [Tab.visitRange] at h
    obtain ⟨e, h1, h⟩ := bind_eq_ok h
    cases e with
    | true => simp only [Tab.visitDeref, h1, ok_bind]; exact h
    | false =>
      simp only [Bool.false_eq_true, if_false] at h
      obtain ⟨it', h2, h⟩ := bind_eq_ok h
      obtain ⟨l', h3, h⟩ := bind_eq_ok h
      cases h
      have hd : t.deref g it = .ok it.pair := by
        unfold Tab.deref
        split
        · rw [h1, ok_bind, ddcheck_ok rfl]; rfl
        · rfl
      simp only [Tab.visitDeref, h1, ok_bind, Bool.false_eq_true, if_false, hd, h2, ih it' l' h3, pure_eq_ok]

theorem fact_rangeDeref (L : Laws g P) (hno : NoOverflow P) {t : Tab S O} {m : FMap} (h : Sem g P t m) : t.rangeDeref g = t.pairs g := by
  have h0 := fact_rangeFor L hno h
  obtain ⟨l, h1, _⟩ := h.pairs L hno
  rw [h1] at h0 ⊢
  simp only [Tab.rangeFor] at h0
  obtain ⟨n, h2, h0⟩ := bind_eq_ok h0
  obtain ⟨it, h3, h0⟩ := bind_eq_ok h0
  simp only [Tab.rangeDeref, h2, h3, ok_bind]
  exact visitDeref_eq _ it l h0

end SC
