import Verif.Spec.AoSpec
/-!
# Objects of the class `array_overflow` own their arrays
-/
namespace SC.Own.Ao

variable {h : Heap} {R : Foot} {a i n k v : Nat} {xs : List Nat} {junk : Nat → Nat → Nat} {t : AoObj}

/-- the two blocks of an object: addresses and contents -/
structure AV where
  ka : Nat
  va : Nat
  ks : List Nat
  vs : List Nat

def foot : Option AV → Foot
  | none => 0
  | some V => pt V.ka .malloc (.data V.ks) + pt V.va .malloc (.data V.vs)

/-- the blocks of the view belong to `t`, which holds the pairs `l` in arrays of `n` cells -/
structure Holds (V : AV) (t : AoObj) (n : Nat) (l : List (Nat × Nat)) : Prop where
  keys : t.keys = some V.ka
  vals : t.vals = some V.va
  elems : t.elems = l.length
  le : n ≤ 256
  ks : ∃ r, V.ks = l.map Prod.fst ++ r ∧ l.length + r.length = n
  vs : ∃ r, V.vs = l.map Prod.snd ++ r ∧ l.length + r.length = n

def Of : Option AV → AoObj → AoVal → Prop
  | none, t, none => t.keys = none ∧ t.vals = none
  | some V, t, some (n, l) => Holds V t n l
  | _, _, _ => False

variable {V : AV} {l : List (Nat × Nat)} {W W' : Option AV} {m m' : AoVal}

theorem init_ok {F : Foot} (junk : Nat → Nat → Nat) (hI : h.Is F) (n : Nat) : ∃ a h' xs, initBlock junk h n = (some a, h') ∧
    h'.Is (pt a .malloc (.data xs) + F) ∧ xs.length = n := ⟨_, _, _, rfl, hI.alloc .malloc _, by rw [List.length_map, List.length_range]⟩

/-- releasing the arrays, in any order -/
theorem release_ok (hO : Of W t m) (hI : h.Is (foot W + R)) :
    (∃ h1 h2, h.clearMember .malloc t.keys = .ok (none, h1) ∧ h1.clearMember .malloc t.vals = .ok (none, h2) ∧ h2.Is R) ∧
    (∃ h1 h2, h.clearMember .malloc t.vals = .ok (none, h1) ∧ h1.clearMember .malloc t.keys = .ok (none, h2) ∧ h2.Is R) := by
  cases W with
  | none =>
    cases m with
    | some m => exact absurd hO id
    | none =>
      rw [hO.1, hO.2]
      exact ⟨⟨h, h, rfl, rfl, hI.cast (by simp [foot])⟩, ⟨h, h, rfl, rfl, hI.cast (by simp [foot])⟩⟩
  | some V =>
    match m, hO with
    | some (n, l), b =>
      have b : Holds V t n l := b
      rw [b.keys, b.vals]
      constructor
      · obtain ⟨h1, a1, a2⟩ := Heap.Is.clearMember (R := pt V.va .malloc (.data V.vs) + R) (hI.cast (by simp only [foot]; ac_rfl))
        obtain ⟨h2, b1, b2⟩ := a2.clearMember
        exact ⟨h1, h2, a1, b1, b2⟩
      · obtain ⟨h1, a1, a2⟩ := Heap.Is.clearMember (a := V.va) (xs := V.vs) (R := pt V.ka .malloc (.data V.ks) + R) (hI.cast (by simp only [foot]; ac_rfl))
        obtain ⟨h2, b1, b2⟩ := a2.clearMember
        exact ⟨h1, h2, a1, b1, b2⟩

theorem destroy_ok (hO : Of W t m) (hI : h.Is (foot W + R)) : ∃ h', destroy h t = .ok h' ∧ h'.Is R := by
  obtain ⟨-, h1, h2, a1, a2, a3⟩ := release_ok hO hI
  exact ⟨h2, by simp only [destroy, a1, a2, ok_bind, pure_eq_ok], a3⟩

theorem clear_ok (hO : Of W t m) (hI : h.Is (foot W + R)) : ∃ h', clear h t = .ok ({ t with keys := none, vals := none }, h') ∧ h'.Is R := by
  obtain ⟨⟨h1, h2, a1, a2, a3⟩, -⟩ := release_ok hO hI
  exact ⟨h2, by simp only [clear, a1, a2, ok_bind, pure_eq_ok], a3⟩

theorem moveAssign_ok {o : AoObj} (hO : Of W t m) (hI : h.Is (foot W + R)) :
    ∃ h', moveAssign h t o = .ok (o, { o with keys := none, vals := none }, h') ∧ h'.Is R := by
  obtain ⟨⟨h1, h2, a1, a2, a3⟩, -⟩ := release_ok hO hI
  exact ⟨h2, by simp only [moveAssign, Heap.assignMember, a1, a2, ok_bind, pure_eq_ok], a3⟩

theorem selfMove_ok (hO : Of W t m) (hI : h.Is (foot W + R)) :
    ∃ h', selfMove h t = .ok ({ t with keys := none, vals := none }, h') ∧ h'.Is R := by
  obtain ⟨⟨h1, h2, a1, a2, a3⟩, -⟩ := release_ok hO hI
  exact ⟨h2, by simp only [selfMove, Heap.selfAssignMember, a1, a2, ok_bind, pure_eq_ok], a3⟩

theorem swap_eq (h : Heap) (a b : AoObj) : swap h a b = .ok (b, a, h) := rfl

theorem selfSwap_eq (h : Heap) (a : AoObj) : selfSwap h a = .ok (a, h) := rfl

theorem renew_ok (junk : Nat → Nat → Nat) (hO : Of W t m) (hI : h.Is (foot W + R)) :
    ∃ V' t' h', renew junk h t = .ok (t', h') ∧ Holds V' t' 256 [] ∧ h'.Is (foot (some V') + R) := by
  obtain ⟨ka, h1, ks, a1, a2, a3⟩ := init_ok junk hI length
  obtain ⟨va, h2, vs, b1, b2, b3⟩ := init_ok junk a2 length
  have e : construct junk h = ({ keys := some ka, vals := some va, elems := 0 }, h2) := by
    simp only [construct, a1, b1, new]
  obtain ⟨h3, c1, c2⟩ := moveAssign_ok (o := { keys := some ka, vals := some va, elems := 0 }) hO (R := pt va .malloc (.data vs) +
    (pt ka .malloc (.data ks) + R)) (b2.cast (by ac_rfl))
  refine ⟨⟨ka, va, ks, vs⟩, { keys := some ka, vals := some va, elems := 0 }, h3, ?_,
    ⟨rfl, rfl, rfl, by decide, ⟨_, rfl, by simpa using a3⟩, ⟨_, rfl, by simpa using b3⟩⟩, c2.cast (by simp only [foot]; ac_rfl)⟩
  simp only [renew, e, c1, ok_bind]
  rfl

theorem read_ok (b : Holds V t n l) (hI : h.Is (foot (some V) + R)) (hi : i < l.length) :
    h.word t.keys i = .ok l[i].1 ∧ h.word t.vals i = .ok l[i].2 := by
  obtain ⟨r, e, -⟩ := b.ks
  obtain ⟨r', e', -⟩ := b.vs
  have i1 : h.Is (pt V.ka .malloc (.data V.ks) + (pt V.va .malloc (.data V.vs) + R)) := hI.cast (by simp only [foot]; ac_rfl)
  have i2 : h.Is (pt V.va .malloc (.data V.vs) + (pt V.ka .malloc (.data V.ks) + R)) := hI.cast (by simp only [foot]; ac_rfl)
  rw [b.keys, b.vals]
  refine ⟨i1.word ?_, i2.word ?_⟩
  · rw [e, List.getElem?_append_left (by simpa using hi)]; simp [hi]
  · rw [e', List.getElem?_append_left (by simpa using hi)]; simp [hi]

/-- all cells can be read, and the first ones hold the keys -/
theorem scan_ok {p : Ptr} (hI : h.Is (pt a .malloc (.data xs) + R)) (hp : p = some a) (k : Nat) :
    ∀ n i, k ∉ xs.take i → (i + n ≤ xs.length ∨ k ∈ xs.take (i + n)) →
      ∃ r, scan h p k i n = .ok r ∧ ((k ∉ xs.take (i + n) ∧ r = NPOS) ∨ (k ∈ xs.take (i + n) ∧ r = xs.idxOf k)) := by
  intro n
  induction n with
  | zero =>
    intro i h0 _
    exact ⟨NPOS, rfl, .inl ⟨h0, rfl⟩⟩
  | succ n ih =>
    intro i h0 hn
    have hi : i < xs.length := by
      rcases hn with h | h
      · omega
      · rcases Nat.lt_or_ge i xs.length with h' | h'
        · exact h'
        · rw [List.take_of_length_le (by omega)] at h h0
          exact absurd h h0
    have hw : h.word p i = .ok xs[i] := by rw [hp]; exact hI.word (List.getElem?_eq_getElem hi)
    by_cases e : xs[i] = k
    · refine ⟨i, by simp only [scan, hw, ok_bind, if_pos e, pure_eq_ok], .inr ⟨?_, ?_⟩⟩
      · rw [← e]
        exact List.mem_take_iff_getElem.mpr ⟨i, by omega, rfl⟩
      · have h1 : xs.idxOf k ≤ i := by
          rcases Nat.lt_or_ge i (xs.idxOf k) with h1 | h1
          · have := List.not_of_lt_findIdx h1
            simp [e] at this
          · exact h1
        rcases Nat.lt_or_ge (xs.idxOf k) i with h2 | h2
        · refine absurd ?_ h0
          exact List.mem_take_iff_getElem.mpr ⟨xs.idxOf k, by omega, List.getElem_idxOf (by omega)⟩
        · omega
    · obtain ⟨r, r1, r2⟩ := ih (i + 1) (by
        rw [← List.take_append_getElem hi, List.mem_append]
        rintro (h | h)
        · exact h0 h
        · exact e (List.mem_singleton.mp h).symm) (by rw [show i + 1 + n = i + (n + 1) by omega]; exact hn)
      rw [show i + 1 + n = i + (n + 1) by omega] at r2
      exact ⟨r, by simp only [scan, hw, ok_bind, if_neg e, r1], r2⟩

theorem find_none {l : List (Nat × Nat)} {k : Nat} : l.find? (fun x => x.1 == k) = none ↔ k ∉ l.map Prod.fst := by
  simp only [List.find?_eq_none, List.mem_map, beq_iff_eq, not_exists, not_and]

theorem find_some {l : List (Nat × Nat)} {k : Nat} {x : Nat × Nat} (h : l.find? (fun x => x.1 == k) = some x) :
    ∃ hi : (l.map Prod.fst).idxOf k < l.length, l[(l.map Prod.fst).idxOf k] = x := by
  induction l with
  | nil => simp at h
  | cons y l ih =>
    simp only [List.find?_cons] at h
    simp only [List.map_cons, List.idxOf_cons]
    by_cases e : y.1 = k
    · simp only [e, beq_self_eq_true, Option.some.injEq, cond_true] at h ⊢
      exact ⟨by simp, by simpa using h⟩
    · have e' : (y.1 == k) = false := by simpa using e
      rw [e'] at h
      obtain ⟨h1, h2⟩ := ih h
      simp only [e', cond_false]
      exact ⟨by simpa using h1, by simpa using h2⟩

theorem find_ok (b : Holds V t n l) (hI : h.Is (foot (some V) + R)) (hk : k ∈ l.map Prod.fst ∨ 256 ≤ n) :
    ∃ r, find h t k = .ok r ∧ (k ∉ l.map Prod.fst → t.elems ≤ r) ∧ (k ∈ l.map Prod.fst → r = (l.map Prod.fst).idxOf k) := by
  obtain ⟨r, e, hr⟩ := b.ks
  have i1 : h.Is (pt V.ka .malloc (.data V.ks) + (pt V.va .malloc (.data V.vs) + R)) := hI.cast (by simp only [foot]; ac_rfl)
  have hle := b.le
  have hlen : V.ks.length = n := by rw [e, List.length_append, List.length_map, hr]
  have ht : V.ks.take (0 + length) = V.ks := List.take_of_length_le (by simp only [length]; omega)
  obtain ⟨q, q1, q2⟩ := scan_ok i1 b.keys k length 0 (by simp) (by
    rw [ht, hlen]
    rcases hk with hk | hk
    · exact .inr (by rw [e]; exact List.mem_append_left _ hk)
    · exact .inl (by simp only [length]; omega))
  rw [ht] at q2
  refine ⟨q, q1, fun hno => ?_, fun hyes => ?_⟩
  · rw [b.elems]
    rcases q2 with ⟨-, rfl⟩ | ⟨-, rfl⟩
    · simp only [NPOS]; omega
    · rw [e, List.idxOf_append_of_notMem hno, List.length_map]; omega
  · rcases q2 with ⟨hq, -⟩ | ⟨-, rfl⟩
    · exact absurd (by rw [e]; exact List.mem_append_left _ hyes) hq
    · rw [e, List.idxOf_append_of_mem hyes]

theorem insert_ok (b : Holds V t n l) (hI : h.Is (foot (some V) + R)) (hl : l.length < n) (k v : Nat) :
    ∃ V' t' h', insert h t k v = .ok (t', h', l.length) ∧ Holds V' t' n (l ++ [(k, v)]) ∧ h'.Is (foot (some V') + R) := by
  obtain ⟨kr, ek, hkr⟩ := b.ks
  obtain ⟨vr, ev, hvr⟩ := b.vs
  have hle := b.le
  obtain ⟨kx, kr, rfl⟩ := List.exists_cons_of_ne_nil (l := kr) (by rintro rfl; simp at hkr; omega)
  obtain ⟨vx, vr, rfl⟩ := List.exists_cons_of_ne_nil (l := vr) (by rintro rfl; simp at hvr; omega)
  have es : ∀ (f : Nat × Nat → Nat) (y z : Nat) (r : List Nat), (l.map f ++ y :: r).set l.length z = l.map f ++ z :: r := by
    intro f y z r
    rw [List.set_append_right _ _ (by simp)]
    simp
  have i1 : h.Is (pt V.ka .malloc (.data (l.map Prod.fst ++ kx :: kr)) + (pt V.va .malloc (.data (l.map Prod.snd ++ vx :: vr)) + R)) :=
    hI.cast (by simp only [foot, ek, ev]; ac_rfl)
  obtain ⟨h1, a1, a2⟩ := i1.setWord (i := l.length) (by simp) k
  rw [es] at a2
  have a3 : h1.Is (pt V.va .malloc (.data (l.map Prod.snd ++ vx :: vr)) + (pt V.ka .malloc (.data (l.map Prod.fst ++ k :: kr)) + R)) := a2.cast (by ac_rfl)
  obtain ⟨h2, b1, b2⟩ := a3.setWord (i := l.length) (by simp) v
  rw [es] at b2
  simp only [List.length_cons] at hkr hvr
  refine ⟨⟨V.ka, V.va, l.map Prod.fst ++ k :: kr, l.map Prod.snd ++ v :: vr⟩, { t with elems := l.length + 1 }, h2, ?_, ⟨b.keys, b.vals, by simp, hle, ⟨kr, by simp, ?_⟩,
    ⟨vr, by simp, ?_⟩⟩, b2.cast (by simp only [foot]; ac_rfl)⟩
  · have e1 : (l.length + 1) % W64 = l.length + 1 := Nat.mod_eq_of_lt (by simp only [W64]; omega)
    simp only [insert, b.elems, b.keys, b.vals, a1, ok_bind, b1, pure_eq_ok, e1]
  · simp only [List.length_append, List.length_singleton]; omega
  · simp only [List.length_append, List.length_singleton]; omega

theorem set_ok (b : Holds V t n l) (hI : h.Is (foot (some V) + R)) (hi : i < l.length) (v : Nat) :
    ∃ V' h', h.setWord t.vals i v = .ok h' ∧ Holds V' t n (l.modify i (fun x => (x.1, v))) ∧ h'.Is (foot (some V') + R) := by
  obtain ⟨r, e, hr⟩ := b.vs
  have i2 : h.Is (pt V.va .malloc (.data V.vs) + (pt V.ka .malloc (.data V.ks) + R)) := hI.cast (by simp only [foot]; ac_rfl)
  obtain ⟨h', h1, h2⟩ := i2.setWord (i := i) (by rw [e]; simp; omega) v
  have e1 : (l.modify i (fun x => (x.1, v))).map Prod.fst = l.map Prod.fst := by
    apply List.ext_getElem (by simp)
    intro j h1 h2
    simp only [List.getElem_map, List.getElem_modify]
    split <;> rfl
  have e2 : (l.modify i (fun x => (x.1, v))).map Prod.snd = (l.map Prod.snd).set i v := by
    apply List.ext_getElem (by simp)
    intro j h1 h2
    simp only [List.getElem_map, List.getElem_modify, List.getElem_set]
    split <;> rfl
  refine ⟨{ V with vs := V.vs.set i v }, h', by rw [b.vals, h1], ⟨b.keys, b.vals, by simp [b.elems], b.le, ?_, r, ?_, by simpa using hr⟩,
    h2.cast (by simp only [foot]; ac_rfl)⟩
  · rw [e1, List.length_modify]; exact b.ks
  · rw [e2]
    show V.vs.set i v = _
    rw [e, List.set_append_left _ _ (by simpa using hi)]

theorem erase_ok (b : Holds V t n l) (hi : i + 1 = l.length) (h : Heap) :
    ∃ t', erase h t i = .ok (t', h) ∧ Holds V t' n (l.eraseIdx i) := by
  have hle := b.le
  obtain ⟨kr, ek, hkr⟩ := b.ks
  obtain ⟨vr, ev, hvr⟩ := b.vs
  obtain ⟨l, x, rfl⟩ : ∃ l' x, l = l' ++ [x] := by
    rcases List.eq_nil_or_concat l with rfl | ⟨l', x, rfl⟩
    · simp at hi
    · exact ⟨l', x, by simp⟩
  simp only [List.length_append, List.length_singleton] at hi hkr hvr
  have hi : i = l.length := by omega
  have e1 : (l ++ [x]).eraseIdx i = l := by
    rw [hi, List.eraseIdx_append_of_length_le (Nat.le_refl _)]; simp
  have hx : t.elems = i + 1 := by rw [b.elems, hi]; simp
  refine ⟨{ t with elems := i }, ?_, ?_⟩
  · have e2 : (i + 1 + W64 - 1) % W64 = i := by
      rw [show i + 1 + W64 - 1 = i + W64 by omega, Nat.add_mod_right]
      exact Nat.mod_eq_of_lt (by simp only [W64]; omega)
    simp only [erase, hx, eraseLoop, if_neg (show ¬ i + 1 < i by omega), ok_bind, pure_eq_ok, e2]
  · rw [e1]
    exact ⟨b.keys, b.vals, hi, hle, ⟨x.1 :: kr, by rw [ek]; simp, by simp only [List.length_cons]; omega⟩,
      ⟨x.2 :: vr, by rw [ev]; simp, by simp only [List.length_cons]; omega⟩⟩

theorem cells_ok {r : List Nat} (hI : h.Is (pt a .malloc (.data (xs ++ r)) + R)) : cells h (some a) xs.length = .ok xs := by
  unfold cells
  by_cases h0 : xs.length = 0
  · rw [if_pos h0, List.eq_nil_of_length_eq_zero h0]
  · rw [if_neg h0, hI.data, ok_bind, if_pos (by simp), List.take_left, pure_eq_ok]

theorem zip_unzip : ∀ l : List (Nat × Nat), (l.map Prod.fst).zip (l.map Prod.snd) = l
  | [] => rfl
  | x :: l => by rw [List.map_cons, List.map_cons, List.zip_cons_cons, zip_unzip l]

theorem save_ok (b : Holds V t n l) (hI : h.Is (foot (some V) + R)) : save h t = .ok l := by
  obtain ⟨kr, ek, -⟩ := b.ks
  obtain ⟨vr, ev, -⟩ := b.vs
  have i1 : h.Is (pt V.ka .malloc (.data (l.map Prod.fst ++ kr)) + (pt V.va .malloc (.data V.vs) + R)) := hI.cast (by simp only [foot, ek]; ac_rfl)
  have i2 : h.Is (pt V.va .malloc (.data (l.map Prod.snd ++ vr)) + (pt V.ka .malloc (.data V.ks) + R)) := hI.cast (by simp only [foot, ev]; ac_rfl)
  have c1 := cells_ok i1
  have c2 := cells_ok i2
  rw [List.length_map] at c1 c2
  simp only [save, b.keys, b.vals, b.elems, c1, c2, ok_bind, pure_eq_ok]
  rw [zip_unzip]

theorem loadBlock_ok {F : Foot} (junk : Nat → Nat → Nat) (hI : h.Is F) (xs : List Nat) :
    ∃ a h', loadBlock junk h xs = .ok (some a, h') ∧ h'.Is (pt a .malloc (.data xs) + F) := by
  obtain ⟨a, h1, ys, a1, a2, -⟩ := init_ok junk hI xs.length
  obtain ⟨h2, b1, b2⟩ := a2.put (.data xs)
  exact ⟨a, h2, by simp only [loadBlock, a1, b1, ok_bind, pure_eq_ok], b2⟩

theorem load_ok (junk : Nat → Nat → Nat) (hI : h.Is R) (t : AoObj) (hl : l.length ≤ 256) :
    ∃ V' t' h', load junk h t l = .ok (t', h') ∧ Holds V' t' l.length l ∧ h'.Is (foot (some V') + R) := by
  obtain ⟨ka, h1, a1, a2⟩ := loadBlock_ok junk hI (l.map Prod.fst)
  obtain ⟨va, h2, b1, b2⟩ := loadBlock_ok junk a2 (l.map Prod.snd)
  refine ⟨⟨ka, va, l.map Prod.fst, l.map Prod.snd⟩, { keys := some ka, vals := some va, elems := l.length }, h2, ?_,
    ⟨rfl, rfl, rfl, hl, ⟨[], by simp⟩, ⟨[], by simp⟩⟩, b2.cast (by simp only [foot]; ac_rfl)⟩
  simp only [load, a1, b1, ok_bind, pure_eq_ok]

/-- every statement does what it should do -/
theorem call_ok (junk : Nat → Nat → Nat) (hO : Of W t m) (hI : h.Is (foot W + R)) (op : AoOp) (hop : AoOK m op) :
    ∃ W' t' h', call junk h t op = .ok (t', h', (aoStep m op).2) ∧ Of W' t' (aoStep m op).1 ∧ h'.Is (foot W' + R) := by
  have general : op = .renew ∨ op = .clear → ∃ W' t' h', call junk h t op = .ok (t', h', (aoStep m op).2) ∧ Of W' t' (aoStep m op).1 ∧ h'.Is (foot W' + R) := by
    rintro (rfl | rfl)
    · obtain ⟨V', t', h', h1, h2, h3⟩ := renew_ok junk hO hI
      refine ⟨some V', t', h', ?_, ?_, h3⟩
      · simp only [call, h1, ok_bind, pure_eq_ok]; rfl
      · exact h2
    · obtain ⟨h', h1, h2⟩ := clear_ok hO hI
      refine ⟨none, { t with keys := none, vals := none }, h', ?_, ?_, h2.cast (by simp [foot])⟩
      · simp only [call, h1, ok_bind, pure_eq_ok]; rfl
      · exact ⟨rfl, rfl⟩
  match W, m, hO with
  | none, none, hO =>
    cases op with
    | renew => exact general (.inl rfl)
    | clear => exact general (.inr rfl)
    | load l =>
      obtain ⟨V', t', h', h1, h2, h3⟩ := load_ok (R := R) junk (hI.cast (by simp [foot])) t hop
      exact ⟨some V', t', h', by simp only [call, h1, ok_bind, pure_eq_ok]; rfl, h2, h3⟩
    | _ => exact absurd hop id
  | some V, some (n, l), hO =>
    have b : Holds V t n l := hO
    cases op with
    | renew => exact general (.inl rfl)
    | clear => exact general (.inr rfl)
    | load l => exact absurd hop id
    | insert k v =>
      obtain ⟨V', t', h', h1, h2, h3⟩ := insert_ok b hI hop k v
      exact ⟨some V', t', h', by simp only [call, h1, ok_bind, pure_eq_ok]; rfl, h2, h3⟩
    | find k =>
      obtain ⟨r, r1, r2, r3⟩ := find_ok b hI hop
      refine ⟨some V, t, h, ?_, b, hI⟩
      simp only [call, r1, ok_bind, aoStep]
      cases hf : l.find? (fun x => x.1 == k) with
      | none =>
        rw [if_neg (by have := r2 (find_none.mp hf); omega)]
        rfl
      | some x =>
        obtain ⟨f1, f2⟩ := find_some hf
        have f3 := r3 (List.idxOf_lt_length_iff.mp (by simpa using f1))
        rw [if_pos (by rw [f3, b.elems]; exact f1), f3, (read_ok b hI f1).2, f2]
        rfl
    | «at» i =>
      obtain ⟨r1, r2⟩ := read_ok b hI (i := i) hop
      refine ⟨some V, t, h, ?_, b, hI⟩
      simp only [call, r1, r2, ok_bind, aoStep, pure_eq_ok]
      rw [List.getElem?_eq_getElem hop]
    | set i v =>
      obtain ⟨V', h', h1, h2, h3⟩ := set_ok b hI hop v
      exact ⟨some V', t, h', by simp only [call, h1, ok_bind, pure_eq_ok]; rfl, h2, h3⟩
    | erase i =>
      obtain ⟨t', h1, h2⟩ := erase_ok b hop h
      exact ⟨some V, t', h, by simp only [call, h1, ok_bind, pure_eq_ok]; rfl, h2, hI⟩
    | size => exact ⟨some V, t, h, by simp only [call, b.elems]; rfl, b, hI⟩
    | save => exact ⟨some V, t, h, by simp only [call, save_ok b hI, ok_bind, pure_eq_ok]; rfl, b, hI⟩

/-- the functions of the class work for a single object -/
def laws (junk : Nat → Nat → Nat) : ObjLaws (cls junk) aoObjects AoOK where
  View := Option AV
  foot := foot
  Of := Of
  new := ⟨none, ⟨rfl, rfl⟩, rfl⟩
  call := fun _ _ _ op _ _ hO hI hP => call_ok junk hO hI op hP
  swap := swap_eq
  moveAssign := fun _ _ o _ _ _ W' _ hO hO' hI => by
    obtain ⟨h', h1, h2⟩ := moveAssign_ok (o := o) hO hI
    exact ⟨W', none, _, _, h', h1, hO', ⟨rfl, rfl⟩, h2.cast (by simp [foot])⟩
  selfSwap := selfSwap_eq
  selfMove := fun _ _ _ _ _ hO hI => by
    obtain ⟨h', h1, h2⟩ := selfMove_ok hO hI
    exact ⟨none, _, h', h1, ⟨rfl, rfl⟩, h2.cast (by simp [foot])⟩
  destroy := fun _ _ _ _ _ hO hI => destroy_ok hO hI

end SC.Own.Ao
