import Verif.Table.Observe
import Verif.Table.Erase
/-!
# Navigators and iterators under any sequence of `++` and `--`

`separate_chaining_iterator` (iterator.hpp:140-186) extends the navigator by a cached pair, which is what `operator*` and `operator->`
return.
-/
namespace SC
variable {S O : Type}

/-- one step of a navigator: `++` (true, iterator.hpp:84-100) or `--` (false, iterator.hpp:101-124) -/
def Tab.nstep (g : Cfg S O) (t : Tab S O) (n : Nav) : Bool → Res Nav
  | true => t.next g n
  | false => t.prev g n

/-- a sequence of steps -/
def Tab.nsteps (g : Cfg S O) (t : Tab S O) : Nav → List Bool → Res Nav
  | n, [] => .ok n
  | n, m :: ms => do
    let n ← t.nstep g n m
    t.nsteps g n ms

/-- `separate_chaining_iterator`: the members of the navigator and `m_pair` (iterator.hpp:150) -/
structure Iter where
  nav : Nav
  pair : Nat × Nat

/-- `if(!invalid()) update();`, iterator.hpp:152-154, 159, 164; `old` is the pair cached before -/
def Tab.refresh (g : Cfg S O) (t : Tab S O) (n : Nav) (old : Nat × Nat) : Res Iter := do
  let inv ← t.invalid g n
  if inv then return ⟨n, old⟩
  let k ← t.keyAt g n
  let v ← t.valueAt g n
  return ⟨n, (k, v)⟩

/-- constructor, iterator.hpp:157-160; `std::pair` initialises its members with zeros -/
def Tab.iterator (g : Cfg S O) (t : Tab S O) (n : Nav) : Res Iter := t.refresh g n (0, 0)

/-- one step of an iterator: `operator++` is overridden (iterator.hpp:162-166), `operator--` is that of the navigator -/
def Tab.istep (g : Cfg S O) (t : Tab S O) (it : Iter) : Bool → Res Iter
  | true => do
    let n ← t.next g it.nav
    t.refresh g n it.pair
  | false => do
    let n ← t.prev g it.nav
    return { it with nav := n }

def Tab.isteps (g : Cfg S O) (t : Tab S O) : Iter → List Bool → Res Iter
  | it, [] => .ok it
  | it, m :: ms => do
    let it ← t.istep g it m
    t.isteps g it ms

/-- what a user calls: `begin()` (sep:488-497, cmp:365-373, grp:1070-1079) and then `++` and `--` -/
def Tab.beginSteps (g : Cfg S O) (t : Tab S O) (ms : List Bool) : Res Nav := do
  let n ← t.beginNav g
  t.nsteps g n ms

def Tab.beginIsteps (g : Cfg S O) (t : Tab S O) (ms : List Bool) : Res Iter := do
  let n ← t.beginNav g
  let it ← t.iterator g n
  t.isteps g it ms

/-- the loop `for(auto it = begin(); it != end(); ++it)`, collecting `*it`; a range-based `for` loop is the same -/
def Tab.visitRange (g : Cfg S O) (t : Tab S O) : Nat → Iter → Res (List (Nat × Nat))
  | 0, _ => .error .fuel
  | f + 1, it => do
    let e ← t.navEq g it.nav Nav.end_
    if e then return []
    let it' ← t.istep g it true
    let l ← t.visitRange g f it'
    return it.pair :: l

def Tab.rangeFor (g : Cfg S O) (t : Tab S O) : Res (List (Nat × Nat)) := do
  let n ← t.beginNav g
  let it ← t.iterator g n
  t.visitRange g (t.size + 1) it

/-! ## What is expected: an index into a list of length `N` -/

/-- The index after a step in a list of `N` elements; `N` itself is the position behind the last element, and there is no way to go
beyond or to the front of the first one. -/
def Seq.step (N i : Nat) : Bool → Option Nat
  | true => if i < N then some (i + 1) else none
  | false => if 0 < i then some (i - 1) else none

/-- the index after a sequence of steps -/
def Seq.steps (N : Nat) : Nat → List Bool → Option Nat
  | i, [] => some i
  | i, m :: ms => (Seq.step N i m).bind (fun j => Seq.steps N j ms)

/-- the index of the element that an iterator has read last: reading happens after `++` only -/
def Seq.cached (N : Nat) : Nat → Nat → List Bool → Nat
  | _, r, [] => r
  | i, r, true :: ms => Seq.cached N (i + 1) (if i + 1 < N then i + 1 else r) ms
  | i, r, false :: ms => Seq.cached N (i - 1) r ms

/-- navigators are bidirectional iterators over the sequence of the forward loop -/
def BidiSpec (g : Cfg S O) (t : Tab S O) : Prop :=
  ∃ l, t.pairs g = .ok l ∧ ∀ ms j, Seq.steps l.length 0 ms = some j → ∃ n, t.beginSteps g ms = .ok n ∧
    match l[j]? with
    | some e => t.navEq g n Nav.end_ = .ok false ∧ t.keyAt g n = .ok e.1 ∧ t.valueAt g n = .ok e.2
    | none => t.navEq g n Nav.end_ = .ok true

/-- two navigators are equal exactly if they are at the same place -/
def SamePlaceSpec (g : Cfg S O) (t : Tab S O) : Prop :=
  ∃ l, t.pairs g = .ok l ∧ ∀ ms ms' j j', Seq.steps l.length 0 ms = some j → Seq.steps l.length 0 ms' = some j' →
    ∃ n n', t.beginSteps g ms = .ok n ∧ t.beginSteps g ms' = .ok n' ∧ t.navEq g n n' = .ok (decide (j = j'))

/-! ## Proofs -/

variable {g : Cfg S O} {P : Par S O}

/-- `n` is at index `j` of the forward order -/
def AtIdx (P : Par S O) (g : Cfg S O) (t : Tab S O) (c : Cont) (n : Nav) (j : Nat) : Prop :=
  (∃ b i, n = ⟨b, i⟩ ∧ b < 2 ^ t.tb ∧ i < (c b).length ∧ j = (entsFrom (g.hash P.kw) t.tb c 0 b).length + i) ∨
  (j = (stored (g.hash P.kw) t.tb c).length ∧ (n = ⟨2 ^ t.tb, 0⟩ ∨ j = 0 ∧ n = Nav.end_))

theorem entsFrom_split {H : HashMapping} {tb : Nat} {c : Cont} {b n : Nat} :
    entsFrom H tb c 0 (b + n) = entsFrom H tb c 0 b ++ entsFrom H tb c b n := by
  unfold entsFrom
  rw [← List.flatMap_append]
  congr 1
  have := List.range'_append (s := 0) (m := b) (n := n) (step := 1)
  simpa using this.symm

theorem stored_at {H : HashMapping} {tb : Nat} {c : Cont} {b i : Nat} (hb : b < 2 ^ tb) (hi : i < (c b).length) :
    (stored H tb c)[(entsFrom H tb c 0 b).length + i]? = some (invKey H tb b (c b)[i].1, (c b)[i].2) := by
  rw [← entsFrom_all, show 2 ^ tb = b + ((2 ^ tb - (b + 1)) + 1) by omega, entsFrom_split, entsFrom_succ,
    List.getElem?_append_right (by omega), Nat.add_sub_cancel_left, List.getElem?_append_left (by simpa [bEnts] using hi)]
  simp [bEnts, hi]

theorem AtIdx.read (L : Laws g P) {t : Tab S O} {c : Cont} {full : Nat → Bool} (h : Live g P t c [] full) {n : Nav} {j : Nat}
    (hn : AtIdx P g t c n j) :
    (∃ e, (stored (g.hash P.kw) t.tb c)[j]? = some e ∧ t.invalid g n = .ok false ∧ t.keyAt g n = .ok e.1 ∧ t.valueAt g n = .ok e.2) ∨
    (j = (stored (g.hash P.kw) t.tb c).length ∧ t.invalid g n = .ok true) := by
  have ho : g.ov.size t.ovf = 0 := by rw [h.osize L]; rfl
  rcases hn with ⟨b, i, rfl, hb, hi, rfl⟩ | ⟨hj, rfl | ⟨_, rfl⟩⟩
  · obtain ⟨r1, r2, r3⟩ := h.loc_read L (h.loc L hb hi)
    exact .inl ⟨_, stored_at hb hi, r3, r1, r2⟩
  · exact .inr ⟨hj, invalid_beyond ho (by rw [h.bc L]; exact Nat.le_refl _)⟩
  · exact .inr ⟨hj, invalid_end (h.tb_lt L)⟩

theorem AtIdx.begin (L : Laws g P) {t : Tab S O} {c : Cont} {full : Nat → Bool} (h : Live g P t c [] full) :
    ∃ n, t.beginNav g = .ok n ∧ AtIdx P g t c n 0 := by
  have ho : g.ov.size t.ovf = 0 := by rw [h.osize L]; rfl
  have hbc := h.bc L
  obtain ⟨b, s1, s2, s3, s4⟩ := scanUp_ok L h (2 ^ t.tb) 0 (by omega)
  by_cases hb : b < 2 ^ t.tb
  · refine ⟨⟨b, 0⟩, by simp only [Tab.beginNav, hbc, s1, ok_bind, if_pos hb]; rfl, .inl ⟨b, 0, rfl, hb, List.length_pos_iff.mpr (s3 hb), ?_⟩⟩
    have := congrArg List.length s4
    have e := congrArg List.length (entsFrom_split (H := g.hash P.kw) (tb := t.tb) (c := c) (b := b) (n := 2 ^ t.tb - b))
    rw [show b + (2 ^ t.tb - b) = 2 ^ t.tb by omega, List.length_append] at e
    omega
  · refine ⟨Nav.end_, by simp [Tab.beginNav, hbc, s1, if_neg hb, ho], .inr ⟨?_, .inr ⟨rfl, rfl⟩⟩⟩
    rw [← entsFrom_all, s4, show 2 ^ t.tb - b = 0 by omega]
    simp [entsFrom]

theorem AtIdx.next (L : Laws g P) {t : Tab S O} {c : Cont} {full : Nat → Bool} (h : Live g P t c [] full) {n : Nav} {j : Nat}
    (hn : AtIdx P g t c n j) (hj : j < (stored (g.hash P.kw) t.tb c).length) :
    ∃ n', t.next g n = .ok n' ∧ AtIdx P g t c n' (j + 1) := by
  have ho : g.ov.size t.ovf = 0 := by rw [h.osize L]; rfl
  have hbc := h.bc L
  rcases hn with ⟨b, i, rfl, hb, hi, rfl⟩ | ⟨hj', _⟩
  · have hsz := L.store.size _ _ _ b (h.good L) h.rep hb
    have hlen := L.store.len _ _ _ b (h.good L) h.rep hb
    have hlt : i + 1 < W64 := by show _ < 2 ^ 64; have : NPOS = 2 ^ 64 - 1 := rfl; omega
    have hnext : t.next g ⟨b, i⟩ = if (c b).length ≤ i + 1 then (do
        let b ← t.scanUp g (t.bucketCount - (b + 1)) (b + 1)
        return ⟨b, 0⟩) else .ok ⟨b, i + 1⟩ := by
      simp only [Tab.next, ho, Nat.lt_irrefl, false_and, if_false, hbc, ddcheck_ok hb, hsz, ok_bind, Nat.mod_eq_of_lt hlt]
      rfl
    rw [hnext]
    by_cases hl : (c b).length ≤ i + 1
    · rw [if_pos hl]
      obtain ⟨b', s1, s2, s3, s4⟩ := scanUp_ok L h (2 ^ t.tb - (b + 1)) (b + 1) (by omega)
      rw [hbc, s1]
      have e0 : (entsFrom (g.hash P.kw) t.tb c 0 b).length + i + 1 = (entsFrom (g.hash P.kw) t.tb c 0 (b + 1)).length := by
        rw [entsFrom_last, List.length_append]; simp only [bEnts, List.length_map]; omega
      have e1 := congrArg List.length (entsFrom_split (H := g.hash P.kw) (tb := t.tb) (c := c) (b := b + 1) (n := 2 ^ t.tb - (b + 1)))
      have e2 := congrArg List.length (entsFrom_split (H := g.hash P.kw) (tb := t.tb) (c := c) (b := b') (n := 2 ^ t.tb - b'))
      rw [show b + 1 + (2 ^ t.tb - (b + 1)) = 2 ^ t.tb by omega, List.length_append] at e1
      rw [show b' + (2 ^ t.tb - b') = 2 ^ t.tb by omega, List.length_append] at e2
      have e3 := congrArg List.length s4
      refine ⟨⟨b', 0⟩, rfl, ?_⟩
      by_cases hb' : b' < 2 ^ t.tb
      · exact .inl ⟨b', 0, rfl, hb', List.length_pos_iff.mpr (s3 hb'), by omega⟩
      · have : b' = 2 ^ t.tb := by omega
        subst this
        refine .inr ⟨?_, .inl rfl⟩
        rw [← entsFrom_all]; omega
    · rw [if_neg hl]
      exact ⟨_, rfl, .inl ⟨b, i + 1, rfl, hb, by omega, by omega⟩⟩
  · omega

theorem AtIdx.prev (L : Laws g P) (hd : g.debug = false) {t : Tab S O} {c : Cont} {full : Nat → Bool} (h : Live g P t c [] full) {n : Nav} {j : Nat}
    (hn : AtIdx P g t c n j) (hj : 0 < j) : ∃ n', t.prev g n = .ok n' ∧ AtIdx P g t c n' (j - 1) := by
  have ho : g.ov.size t.ovf = 0 := by rw [h.osize L]; rfl
  have hbc := h.bc L
  rcases hn with ⟨b, i, rfl, hb, hi, rfl⟩ | ⟨hj', rfl | ⟨h0, _⟩⟩
  · rcases prev_ok L h hb (Nat.le_of_lt hi) with ⟨b', i', h1, h2, h3, h4, _⟩ | ⟨i', h1, h2, h3, h4⟩
    · refine ⟨_, h1, .inl ⟨b', i', rfl, by omega, h3, ?_⟩⟩
      have e := congrArg List.length h4
      unfold entsUpTo at e
      simp only [List.length_append, List.length_take, bEnts, List.length_map] at e
      omega
    · have e := congrArg List.length h4
      simp only [List.length_append, List.length_take, bEnts, List.length_map, List.length_nil] at e
      omega
  · have hpos := Nat.two_pow_pos t.tb
    rcases scanDown_ok L h (2 ^ t.tb) (Nat.le_refl _) with ⟨b', h1, h2, h3, h4, h5⟩ | ⟨h1, h2, h3⟩
    · have hsz' := L.store.size _ _ _ b' (h.good L) h.rep h2
      have hl : 0 < (c b').length := List.length_pos_iff.mpr h3
      refine ⟨⟨b', (c b').length - 1⟩, ?_, .inl ⟨b', _, rfl, h2, by omega, ?_⟩⟩
      · simp only [Tab.prev, ho, Nat.lt_irrefl, false_and, if_false, hd, ddcheck_off, ok_bind, h1, hbc, if_pos h2, hsz', pure_eq_ok]
      · have e := congrArg List.length h5
        rw [entsFrom_all, entsFrom_last, List.length_append, ← hj'] at e
        simp only [bEnts, List.length_map] at e
        omega
    · rw [entsFrom_all] at h3
      rw [h3] at hj'
      simp at hj'; omega
  · omega

theorem AtIdx.steps (L : Laws g P) (hd : g.debug = false) {t : Tab S O} {c : Cont} {full : Nat → Bool} (h : Live g P t c [] full) :
    ∀ (ms : List Bool) (n : Nav) (i j : Nat), AtIdx P g t c n i → Seq.steps (stored (g.hash P.kw) t.tb c).length i ms = some j →
      ∃ n', t.nsteps g n ms = .ok n' ∧ AtIdx P g t c n' j := by
  intro ms
  induction ms with
  | nil => intro n i j hn hj; cases hj; exact ⟨n, rfl, hn⟩
  | cons m ms ih =>
    intro n i j hn hj
    cases m with
    | true =>
      simp only [Seq.steps, Seq.step] at hj
      by_cases hi : i < (stored (g.hash P.kw) t.tb c).length
      · rw [if_pos hi, Option.bind_some] at hj
        obtain ⟨n', h1, h2⟩ := hn.next L h hi
        obtain ⟨n'', h3, h4⟩ := ih n' _ j h2 hj
        exact ⟨n'', by simp only [Tab.nsteps, Tab.nstep, h1, ok_bind, h3], h4⟩
      · rw [if_neg hi] at hj; cases hj
    | false =>
      simp only [Seq.steps, Seq.step] at hj
      by_cases hi : 0 < i
      · rw [if_pos hi, Option.bind_some] at hj
        obtain ⟨n', h1, h2⟩ := hn.prev L hd h hi
        obtain ⟨n'', h3, h4⟩ := ih n' _ j h2 hj
        exact ⟨n'', by simp only [Tab.nsteps, Tab.nstep, h1, ok_bind, h3], h4⟩
      · rw [if_neg hi] at hj; cases hj

/-- forward order and states of a table that is described by `Sem`, with or without buckets -/
theorem Sem.bidi (L : Laws g P) (hno : NoOverflow P) {t : Tab S O} {m : FMap} (h : Sem g P t m) :
    (t.tb = 0 ∧ t.pairs g = .ok [] ∧ t.beginNav g = .ok Nav.end_ ∧ t.navEq g Nav.end_ Nav.end_ = .ok true) ∨
    ∃ c full, Live g P t c [] full ∧ t.pairs g = .ok (stored (g.hash P.kw) t.tb c) := by
  obtain ⟨l, h, ha⟩ := h
  rcases h with ⟨h1, h2, h3, h4, h5, h6, rfl, hst, n, full, h7⟩ | ⟨c, o, full, hl, hp⟩
  · have htb : t.tb < 64 := by omega
    have hb : t.bucketCount = 0 := by simp [Tab.bucketCount, h5]
    have ho : g.ov.size t.ovf = 0 := L.ovf.size _ _ _ _ h7
    have hn : t.beginNav g = .ok Nav.end_ := by simp [Tab.beginNav, hb, Tab.scanUp, ho]
    refine .inl ⟨h5, ?_, hn, navEq_true htb (invalid_end htb)⟩
    simp only [Tab.pairs, hn, ok_bind, Tab.visit, navEq_true htb (invalid_end htb), if_true, pure_eq_ok]
  · have : o = [] := hno _ _ _ _ hl.orep
    subst this
    obtain ⟨n, q1, q2⟩ := hl.visit_begin L (show t.elems < t.size + 1 by simp [Tab.size])
    exact .inr ⟨c, full, hl, by simp only [Tab.pairs, q1, ok_bind, q2]⟩

theorem Sem.tb_lt (L : Laws g P) {t : Tab S O} {m : FMap} (h : Sem g P t m) : t.tb < 64 := by
  obtain ⟨l, h, _⟩ := h
  rcases h with ⟨_, _, _, _, h5, _⟩ | ⟨c, o, full, hl, _⟩
  · omega
  · exact hl.tb_lt L

theorem Seq.steps_zero {ms : List Bool} {j : Nat} (h : Seq.steps 0 0 ms = some j) : ms = [] ∧ j = 0 := by
  cases ms with
  | nil => cases h; exact ⟨rfl, rfl⟩
  | cons m ms => cases m <;> simp [Seq.steps, Seq.step] at h

theorem fact_bidi (L : Laws g P) (hd : g.debug = false) (hno : NoOverflow P) {t : Tab S O} {m : FMap} (h : Sem g P t m) : BidiSpec g t := by
  rcases h.bidi L hno with ⟨h1, h2, h3, h4⟩ | ⟨c, full, hl, h2⟩
  · refine ⟨[], h2, fun ms j hj => ?_⟩
    obtain ⟨rfl, rfl⟩ := Seq.steps_zero hj
    exact ⟨Nav.end_, by simp only [Tab.beginSteps, h3, ok_bind, Tab.nsteps], h4⟩
  · refine ⟨_, h2, fun ms j hj => ?_⟩
    obtain ⟨n, b1, b2⟩ := AtIdx.begin L hl
    obtain ⟨n', s1, s2⟩ := AtIdx.steps L hd hl ms n 0 j b2 hj
    refine ⟨n', by simp only [Tab.beginSteps, b1, ok_bind, s1], ?_⟩
    rcases s2.read L hl with ⟨e, e1, e2, e3, e4⟩ | ⟨e1, e2⟩
    · rw [e1]; exact ⟨navEq_false (hl.tb_lt L) e2, e3, e4⟩
    · rw [List.getElem?_eq_none (by omega)]
      exact navEq_true (hl.tb_lt L) e2

theorem AtIdx.inj {t : Tab S O} {c : Cont} {b i b' i' : Nat} (hi : i < (c b).length) (hi' : i' < (c b').length)
    (e : (entsFrom (g.hash P.kw) t.tb c 0 b).length + i = (entsFrom (g.hash P.kw) t.tb c 0 b').length + i') : b = b' ∧ i = i' := by
  have key : ∀ x y, x < y → (entsFrom (g.hash P.kw) t.tb c 0 x).length + (c x).length ≤ (entsFrom (g.hash P.kw) t.tb c 0 y).length := by
    intro x y hxy
    have e1 := congrArg List.length (entsFrom_split (H := g.hash P.kw) (tb := t.tb) (c := c) (b := x + 1) (n := y - (x + 1)))
    rw [show x + 1 + (y - (x + 1)) = y by omega, List.length_append, entsFrom_last, List.length_append] at e1
    simp only [bEnts, List.length_map] at e1
    omega
  rcases Nat.lt_trichotomy b b' with hlt | rfl | hlt
  · have := key b b' hlt; omega
  · exact ⟨rfl, by omega⟩
  · have := key b' b hlt; omega

theorem fact_samePlace (L : Laws g P) (hd : g.debug = false) (hno : NoOverflow P) {t : Tab S O} {m : FMap} (h : Sem g P t m) : SamePlaceSpec g t := by
  rcases h.bidi L hno with ⟨h1, h2, h3, h4⟩ | ⟨c, full, hl, h2⟩
  · refine ⟨[], h2, fun ms ms' j j' hj hj' => ?_⟩
    obtain ⟨rfl, rfl⟩ := Seq.steps_zero hj
    obtain ⟨rfl, rfl⟩ := Seq.steps_zero hj'
    have : t.beginSteps g [] = .ok Nav.end_ := by simp only [Tab.beginSteps, h3, ok_bind, Tab.nsteps]
    exact ⟨_, _, this, this, h4⟩
  · refine ⟨_, h2, fun ms ms' j j' hj hj' => ?_⟩
    obtain ⟨n0, b1, b2⟩ := AtIdx.begin L hl
    obtain ⟨n, s1, s2⟩ := AtIdx.steps L hd hl ms n0 0 j b2 hj
    obtain ⟨n', s1', s2'⟩ := AtIdx.steps L hd hl ms' n0 0 j' b2 hj'
    refine ⟨n, n', by simp only [Tab.beginSteps, b1, ok_bind, s1], by simp only [Tab.beginSteps, b1, ok_bind, s1'], ?_⟩
    have lt : ∀ {j : Nat} {e : Nat × Nat}, (stored (g.hash P.kw) t.tb c)[j]? = some e → j < (stored (g.hash P.kw) t.tb c).length :=
      fun h => (List.getElem?_eq_some_iff.mp h).1
    rcases s2.read L hl with ⟨e, e1, e2, e3, e4⟩ | ⟨e1, e2⟩ <;> rcases s2'.read L hl with ⟨e', e1', e2', e3', e4'⟩ | ⟨e1', e2'⟩
    · simp only [Tab.navEq, e2, e2', ok_bind, Bool.not_false, Bool.and_self, if_true, pure_eq_ok]
      have d1 := lt e1
      have d2 := lt e1'
      rcases s2 with ⟨b, i, rfl, hb, hi, rfl⟩ | ⟨hh, _⟩
      · rcases s2' with ⟨b', i', rfl, hb', hi', rfl⟩ | ⟨hh, _⟩
        · refine congrArg Except.ok (decide_eq_decide.mpr ?_)
          constructor
          · intro e; cases e; rfl
          · intro e
            obtain ⟨rfl, rfl⟩ := AtIdx.inj hi hi' e
            rfl
        · omega
      · omega
    · have := lt e1
      simp only [Tab.navEq, e2, e2', ok_bind, Bool.not_true, Bool.false_and, Bool.false_eq_true, if_false, pure_eq_ok]
      exact congrArg Except.ok (by rw [show decide (j = j') = false from decide_eq_false (by omega)]; rfl)
    · have := lt e1'
      simp only [Tab.navEq, e2, e2', ok_bind, Bool.not_true, Bool.and_false, Bool.false_eq_true, if_false, pure_eq_ok]
      exact congrArg Except.ok (by rw [show decide (j = j') = false from decide_eq_false (by omega)]; rfl)
    · simp only [Tab.navEq, e2, e2', ok_bind, Bool.not_true, Bool.and_false, Bool.false_eq_true, if_false, pure_eq_ok]
      exact congrArg Except.ok (by rw [show decide (j = j') = true from decide_eq_true (by omega)]; rfl)

/-! ## Iterators -/

/-- The pair behind an iterator after any steps from `begin()`: it is where a navigator would be, and `*it` is the pair that was
read after the last `++` (or by `begin()`). -/
def IterSpec (g : Cfg S O) (t : Tab S O) : Prop :=
  ∃ l, t.pairs g = .ok l ∧ ∀ ms j, Seq.steps l.length 0 ms = some j → ∃ it, t.beginIsteps g ms = .ok it ∧ t.beginSteps g ms = .ok it.nav ∧
    ∀ e, l[Seq.cached l.length 0 0 ms]? = some e → it.pair = e

theorem refresh_valid {t : Tab S O} {n : Nav} {old : Nat × Nat} {k v : Nat} (h1 : t.invalid g n = .ok false) (h2 : t.keyAt g n = .ok k)
    (h3 : t.valueAt g n = .ok v) : t.refresh g n old = .ok ⟨n, (k, v)⟩ := by
  simp [Tab.refresh, h1, h2, h3]

theorem refresh_invalid {t : Tab S O} {n : Nav} {old : Nat × Nat} (h1 : t.invalid g n = .ok true) : t.refresh g n old = .ok ⟨n, old⟩ := by
  simp [Tab.refresh, h1]

theorem isteps_ok (L : Laws g P) (hd : g.debug = false) {t : Tab S O} {c : Cont} {full : Nat → Bool} (h : Live g P t c [] full) :
    ∀ (ms : List Bool) (it : Iter) (i j r : Nat), AtIdx P g t c it.nav i → (stored (g.hash P.kw) t.tb c)[r]? = some it.pair →
      Seq.steps (stored (g.hash P.kw) t.tb c).length i ms = some j →
      ∃ it', t.isteps g it ms = .ok it' ∧ t.nsteps g it.nav ms = .ok it'.nav ∧
        (stored (g.hash P.kw) t.tb c)[Seq.cached (stored (g.hash P.kw) t.tb c).length i r ms]? = some it'.pair := by
  intro ms
  induction ms with
  | nil => intro it i j r hn hr hj; exact ⟨it, rfl, rfl, hr⟩
  | cons m ms ih =>
    intro it i j r hn hr hj
    cases m with
    | true =>
      simp only [Seq.steps, Seq.step] at hj
      by_cases hi : i < (stored (g.hash P.kw) t.tb c).length
      · rw [if_pos hi, Option.bind_some] at hj
        obtain ⟨n', h1, h2⟩ := hn.next L h hi
        rcases h2.read L h with ⟨e, e1, e2, e3, e4⟩ | ⟨e1, e2⟩
        · have hlt := (List.getElem?_eq_some_iff.mp e1).1
          obtain ⟨it', q1, q2, q3⟩ := ih ⟨n', (e.1, e.2)⟩ (i + 1) j (i + 1) h2 e1 hj
          refine ⟨it', ?_, ?_, ?_⟩
          · simp only [Tab.isteps, Tab.istep, h1, ok_bind, refresh_valid e2 e3 e4, q1]
          · simp only [Tab.nsteps, Tab.nstep, h1, ok_bind, q2]
          · rw [Seq.cached, if_pos hlt]; exact q3
        · obtain ⟨it', q1, q2, q3⟩ := ih ⟨n', it.pair⟩ (i + 1) j r h2 hr hj
          refine ⟨it', ?_, ?_, ?_⟩
          · simp only [Tab.isteps, Tab.istep, h1, ok_bind, refresh_invalid e2, q1]
          · simp only [Tab.nsteps, Tab.nstep, h1, ok_bind, q2]
          · rw [Seq.cached, if_neg (show ¬ i + 1 < (stored (g.hash P.kw) t.tb c).length by omega)]; exact q3
      · rw [if_neg hi] at hj; cases hj
    | false =>
      simp only [Seq.steps, Seq.step] at hj
      by_cases hi : 0 < i
      · rw [if_pos hi, Option.bind_some] at hj
        obtain ⟨n', h1, h2⟩ := hn.prev L hd h hi
        obtain ⟨it', q1, q2, q3⟩ := ih ⟨n', it.pair⟩ (i - 1) j r h2 hr hj
        refine ⟨it', ?_, ?_, q3⟩
        · simp only [Tab.isteps, Tab.istep, h1, ok_bind, pure_eq_ok, q1]
        · simp only [Tab.nsteps, Tab.nstep, h1, ok_bind, q2]
      · rw [if_neg hi] at hj; cases hj

theorem fact_iter (L : Laws g P) (hd : g.debug = false) (hno : NoOverflow P) {t : Tab S O} {m : FMap} (h : Sem g P t m) : IterSpec g t := by
  rcases h.bidi L hno with ⟨h1, h2, h3, h4⟩ | ⟨c, full, hl, h2⟩
  · refine ⟨[], h2, fun ms j hj => ?_⟩
    obtain ⟨rfl, rfl⟩ := Seq.steps_zero hj
    refine ⟨⟨Nav.end_, (0, 0)⟩, ?_, ?_, fun e he => by simp at he⟩
    · simp only [Tab.beginIsteps, h3, ok_bind, Tab.iterator, refresh_invalid (g := g) (t := t) (invalid_end (show t.tb < 64 by omega)), Tab.isteps]
    · simp only [Tab.beginSteps, h3, ok_bind, Tab.nsteps]
  · refine ⟨_, h2, fun ms j hj => ?_⟩
    obtain ⟨n, b1, b2⟩ := AtIdx.begin L hl
    rcases b2.read L hl with ⟨e, e1, e2, e3, e4⟩ | ⟨e1, e2⟩
    · obtain ⟨it', q1, q2, q3⟩ := isteps_ok L hd hl ms ⟨n, (e.1, e.2)⟩ 0 j 0 b2 e1 hj
      refine ⟨it', ?_, ?_, fun e he => ?_⟩
      · simp only [Tab.beginIsteps, b1, ok_bind, Tab.iterator, refresh_valid e2 e3 e4, q1]
      · simp only [Tab.beginSteps, b1, ok_bind, q2]
      · rw [q3] at he; exact Option.some.inj he
    · rw [← e1] at hj
      obtain ⟨rfl, rfl⟩ := Seq.steps_zero hj
      refine ⟨⟨n, (0, 0)⟩, ?_, ?_, fun e he => ?_⟩
      · simp only [Tab.beginIsteps, b1, ok_bind, Tab.iterator, refresh_invalid e2, Tab.isteps]
      · simp only [Tab.beginSteps, b1, ok_bind, Tab.nsteps]
      · rw [List.getElem?_eq_none (by omega)] at he; cases he

/-- a loop through iterators sees what a loop through navigators sees -/
theorem visitRange_eq {t : Tab S O} (htb : t.tb < 64) : ∀ (f : Nat) (n : Nav) (old : Nat × Nat) (l : List (Nat × Nat)), t.visit g f n = .ok l →
    (do let it ← t.refresh g n old; t.visitRange g f it) = .ok l := by
  intro f
  induction f with
  | zero => intro n old l h; cases h
  | succ f ih =>
    intro n old l h
    simp only [Tab.visit] at h
    obtain ⟨e, h1, h⟩ := bind_eq_ok h
    have hend := invalid_end (g := g) htb
    have hinv : t.invalid g n = .ok e := by
      simp only [Tab.navEq, hend, ok_bind] at h1
      obtain ⟨ia, h2, h3⟩ := bind_eq_ok h1
      rw [h2]
      refine congrArg Except.ok ?_
      cases ia <;> cases e <;> simp at h3 ⊢
    cases e with
    | true =>
      cases h
      simp only [refresh_invalid hinv, ok_bind, Tab.visitRange, h1, if_true, pure_eq_ok]
    | false =>
      simp only [Bool.false_eq_true, if_false] at h
      obtain ⟨k, h2, h⟩ := bind_eq_ok h
      obtain ⟨v, h3, h⟩ := bind_eq_ok h
      obtain ⟨n', h4, h⟩ := bind_eq_ok h
      obtain ⟨l', h5, h⟩ := bind_eq_ok h
      cases h
      have := ih n' (k, v) l' h5
      obtain ⟨it', r1, r2⟩ := bind_eq_ok this
      simp only [refresh_valid hinv h2 h3, ok_bind, Tab.visitRange, h1, Bool.false_eq_true, if_false, Tab.istep, h4, r1, r2, pure_eq_ok]

theorem fact_rangeFor (L : Laws g P) (hno : NoOverflow P) {t : Tab S O} {m : FMap} (h : Sem g P t m) : t.rangeFor g = t.pairs g := by
  have htb := h.tb_lt L
  obtain ⟨l, h1, _⟩ := h.pairs L hno
  rw [h1]
  simp only [Tab.pairs] at h1
  obtain ⟨n, h2, h3⟩ := bind_eq_ok h1
  have := visitRange_eq htb _ n (0, 0) l h3
  simp only [Tab.rangeFor, h2, ok_bind, Tab.iterator]
  exact this

/-- `find(k)` as an iterator, sep:535-550, cmp:408-418, grp:1105-1120 -/
def Tab.findIter (g : Cfg S O) (t : Tab S O) (k : Nat) : Res Iter := do
  let n ← t.find g k
  t.iterator g n

theorem fact_findIter {t : Tab S O} (htb : t.tb < 64) {k : Nat} {r : Option (Nat × Nat)} (h : t.lookup g k = .ok r) :
    ∃ it, t.findIter g k = .ok it ∧ t.navEq g it.nav Nav.end_ = .ok r.isNone ∧ ∀ e, r = some e → it.pair = e := by
  simp only [Tab.lookup] at h
  obtain ⟨n, h1, h⟩ := bind_eq_ok h
  obtain ⟨e, h2, h⟩ := bind_eq_ok h
  have hend := invalid_end (g := g) htb
  have hinv : t.invalid g n = .ok e := by
    simp only [Tab.navEq, hend, ok_bind] at h2
    obtain ⟨ia, h3, h4⟩ := bind_eq_ok h2
    rw [h3]
    refine congrArg Except.ok ?_
    cases ia <;> cases e <;> simp at h4 ⊢
  cases e with
  | true =>
    cases h
    exact ⟨⟨n, (0, 0)⟩, by simp only [Tab.findIter, h1, ok_bind, Tab.iterator, refresh_invalid hinv], h2, fun e he => by cases he⟩
  | false =>
    simp only [Bool.false_eq_true, if_false] at h
    obtain ⟨k', h3, h⟩ := bind_eq_ok h
    obtain ⟨v, h4, h⟩ := bind_eq_ok h
    cases h
    exact ⟨⟨n, (k', v)⟩, by simp only [Tab.findIter, h1, ok_bind, Tab.iterator, refresh_valid hinv h3 h4], h2, fun e he => by cases he; rfl⟩


/-! ## Consequences -/

theorem Seq.steps_up (N : Nat) : ∀ (n i : Nat), i + n ≤ N → Seq.steps N i (List.replicate n true) = some (i + n) := by
  intro n
  induction n with
  | zero => intro i _; rfl
  | succ n ih =>
    intro i h
    rw [List.replicate_succ, Seq.steps, Seq.step, if_pos (by omega), Option.bind_some, ih (i + 1) (by omega)]
    exact congrArg some (by omega)

theorem Seq.cached_up (N : Nat) : ∀ (n i : Nat), i + n < N → Seq.cached N i i (List.replicate n true) = i + n := by
  intro n
  induction n with
  | zero => intro i _; rfl
  | succ n ih =>
    intro i h
    rw [List.replicate_succ, Seq.cached, if_pos (by omega), ih (i + 1) (by omega)]
    omega

/-- An iterator that is moved by `++` only shows the pair it is at; a range-based `for` loop sees all pairs. -/
def IterUpSpec (g : Cfg S O) (t : Tab S O) : Prop :=
  ∃ l, t.pairs g = .ok l ∧ t.rangeFor g = .ok l ∧
    ∀ i e, l[i]? = some e → ∃ it, t.beginIsteps g (List.replicate i true) = .ok it ∧ t.navEq g it.nav Nav.end_ = .ok false ∧ it.pair = e

/-- After `++it; --it;` the iterator equals `begin()`, but `*it` is another pair than `*begin()`. -/
def StaleSpec (g : Cfg S O) (t : Tab S O) : Prop :=
  ∃ it₀ it, t.beginIsteps g [] = .ok it₀ ∧ t.beginIsteps g [true, false] = .ok it ∧ t.navEq g it.nav it₀.nav = .ok true ∧ it.pair ≠ it₀.pair

theorem fact_iterUp (L : Laws g P) (hd : g.debug = false) (hno : NoOverflow P) {t : Tab S O} {m : FMap} (h : Sem g P t m) : IterUpSpec g t := by
  obtain ⟨l, h1, h2⟩ := fact_iter L hd hno h
  obtain ⟨l', h1', h2'⟩ := fact_bidi L hd hno h
  rw [h1] at h1'
  cases h1'
  refine ⟨l, h1, by rw [fact_rangeFor L hno h, h1], fun i e he => ?_⟩
  have hlt := (List.getElem?_eq_some_iff.mp he).1
  have hs := Seq.steps_up l.length i 0 (by omega)
  rw [Nat.zero_add] at hs
  obtain ⟨it, q1, q2, q3⟩ := h2 _ _ hs
  obtain ⟨n, r1, r2⟩ := h2' _ _ hs
  rw [q2] at r1
  cases r1
  rw [he] at r2
  refine ⟨it, q1, r2.1, q3 e ?_⟩
  rw [Seq.cached_up l.length i 0 (by omega), Nat.zero_add, he]

theorem fact_stale (L : Laws g P) (hd : g.debug = false) (hno : NoOverflow P) {t : Tab S O} {m : FMap} (h : Sem g P t m) (hsz : 2 ≤ t.size) : StaleSpec g t := by
  obtain ⟨l, h1, h2⟩ := fact_iter L hd hno h
  obtain ⟨l', h1', h2'⟩ := fact_samePlace L hd hno h
  rw [h1] at h1'
  cases h1'
  obtain ⟨l', f1, f2, f3⟩ := h.pairs L hno
  rw [h1] at f1
  cases f1
  obtain ⟨l', g1, g2⟩ := (fact_size L hno h).2.1
  rw [h1] at g1
  cases g1
  obtain ⟨e₀, e₁, l, rfl⟩ : ∃ e₀ e₁ l', l = e₀ :: e₁ :: l' := by
    match l, g2 with
    | [], g2 => simp at g2; omega
    | [_], g2 => simp at g2; omega
    | e₀ :: e₁ :: l', _ => exact ⟨e₀, e₁, l', rfl⟩
  have hne : e₁ ≠ e₀ := by
    intro e
    have := f2.nodup L
    rw [e] at this
    simp at this
  have hs : Seq.steps (e₀ :: e₁ :: l).length 0 [true, false] = some 0 := by simp [Seq.steps, Seq.step]
  obtain ⟨it, q1, q2, q3⟩ := h2 _ _ hs
  obtain ⟨it₀, r1, r2, r3⟩ := h2 [] 0 rfl
  obtain ⟨n, n', s1, s2, s3⟩ := h2' _ [] _ 0 hs rfl
  rw [q2] at s1
  cases s1
  rw [r2] at s2
  cases s2
  refine ⟨it₀, it, r1, q1, by simpa using s3, ?_⟩
  rw [q3 e₁ (by simp [Seq.cached]), r3 e₀ (by simp [Seq.cached])]
  exact hne

theorem nsteps_append {t : Tab S O} : ∀ (a b : List Bool) (n : Nav), t.nsteps g n (a ++ b) = (do let n ← t.nsteps g n a; t.nsteps g n b) := by
  intro a
  induction a with
  | nil => intro b n; rfl
  | cons m a ih =>
    intro b n
    simp only [List.cons_append, Tab.nsteps]
    cases h : t.nstep g n m with
    | error e => rfl
    | ok n' => simp only [ok_bind, ih]

/-- a navigator that arrives at the end by `++` can go back to the last element -/
def LastSpec (g : Cfg S O) (t : Tab S O) : Prop :=
  ∃ l n n', t.pairs g = .ok l ∧ t.beginSteps g (List.replicate t.size true) = .ok n ∧ t.navEq g n Nav.end_ = .ok true ∧
    t.prev g n = .ok n' ∧ t.navEq g n' Nav.end_ = .ok false ∧
    ∃ e, l.getLast? = some e ∧ t.keyAt g n' = .ok e.1 ∧ t.valueAt g n' = .ok e.2

theorem fact_last (L : Laws g P) (hd : g.debug = false) (hno : NoOverflow P) {t : Tab S O} {m : FMap} (h : Sem g P t m) (hne : t.size ≠ 0) : LastSpec g t := by
  obtain ⟨l, h1, h2⟩ := fact_bidi L hd hno h
  obtain ⟨l', g1, g2⟩ := (fact_size L hno h).2.1
  rw [h1] at g1
  cases g1
  have s1 := Seq.steps_up l.length l.length 0 (by omega)
  rw [Nat.zero_add] at s1
  have s2 : Seq.steps l.length 0 (List.replicate l.length true ++ [false]) = some (l.length - 1) := by
    have : ∀ (a : List Bool) (b : List Bool) (i : Nat), Seq.steps l.length i (a ++ b) = (Seq.steps l.length i a).bind (fun j => Seq.steps l.length j b) := by
      intro a
      induction a with
      | nil => intro b i; rfl
      | cons m a ih =>
        intro b i
        simp only [List.cons_append, Seq.steps]
        cases Seq.step l.length i m with
        | none => rfl
        | some j => simp only [Option.bind_some, ih]
    rw [this, s1, Option.bind_some]
    simp only [Seq.steps, Seq.step]
    rw [if_pos (by omega)]; rfl
  obtain ⟨n, q1, q2⟩ := h2 _ _ s1
  obtain ⟨n', r1, r2⟩ := h2 _ _ s2
  rw [List.getElem?_eq_none (Nat.le_refl _)] at q2
  obtain ⟨e, he⟩ : ∃ e, l[l.length - 1]? = some e := ⟨_, List.getElem?_eq_getElem (by omega)⟩
  rw [he] at r2
  refine ⟨l, n, n', h1, by rw [← g2]; exact q1, q2, ?_, r2.1, e, by rw [List.getLast?_eq_getElem?]; exact he, r2.2⟩
  simp only [Tab.beginSteps] at q1 r1
  obtain ⟨b, e1, e2⟩ := bind_eq_ok q1
  rw [e1, ok_bind, nsteps_append, e2, ok_bind] at r1
  simp only [Tab.nsteps, Tab.nstep] at r1
  obtain ⟨n'', e3, e4⟩ := bind_eq_ok r1
  cases e4
  exact e3

/-- `--end_nav()` reads the size of bucket `2^64-1`. -/
theorem prev_end {t : Tab S O} (hd : g.debug = false) (ho : g.ov.size t.ovf = 0) {e : Fault} (h : g.ops.size t.store (t.dim g) NPOS = .error e) :
    t.prev g Nav.end_ = .error e := by
  have h0 : 0 < NPOS := by decide
  simp only [Tab.prev, ho, Nat.lt_irrefl, false_and, if_false, Nav.end_, hd, ddcheck_off, ok_bind, h0, if_true, h, error_bind]

end SC
