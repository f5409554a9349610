import Verif.Own.Bt
import Verif.BucketTable.Run
/-!
# `bucket_table` keeps the ownership and the contents
-/
namespace SC.Own

variable {h : Heap} {R : Foot} {a i n : Nat} {how : Alloc} {xs : List Nat}

theorem Heap.Is.initMember {F : Foot} (hI : h.Is F) (how : Alloc) (n : Nat) :
    ∃ a h', h.initMember how n = (some a, h') ∧ h'.Is (pt a how (.data (List.replicate n 0)) + F) :=
  ⟨_, _, rfl, hI.alloc how _⟩

theorem Heap.Is.clearMember (hI : h.Is (pt a how (.data xs) + R)) : ∃ h', h.clearMember how (some a) = .ok (none, h') ∧ h'.Is R := by
  obtain ⟨h', h1, h2⟩ := hI.free
  exact ⟨h', by simp only [Heap.clearMember, h1, ok_bind, pure_eq_ok], h2⟩

theorem Heap.clearMember_none (h : Heap) (how : Alloc) : h.clearMember how none = .ok (none, h) := rfl

theorem Heap.Is.resizeMember {l r : List Nat} (hI : h.Is (pt a how (.data (l ++ r)) + R)) (hn : l.length ≤ n) :
    ∃ a' h' r', h.resizeMember how (some a) l.length n = .ok (some a', h') ∧ h'.Is (pt a' how (.data (l ++ r')) + R) ∧
      l.length + r'.length = n := by
  have e : ((l ++ r).take l.length ++ List.replicate (n - l.length) 0).take n = l ++ List.replicate (n - l.length) 0 := by
    rw [List.take_left]
    exact List.take_of_length_le (by simp; omega)
  have i1 := hI.alloc how (.data (l ++ List.replicate (n - l.length) 0))
  have i2 : (h.alloc how (.data (l ++ List.replicate (n - l.length) 0))).2.Is (pt a how (.data (l ++ r)) +
      (pt (h.alloc how (.data (l ++ List.replicate (n - l.length) 0))).1 how (.data (l ++ List.replicate (n - l.length) 0)) + R)) :=
    i1.cast (by ac_rfl)
  obtain ⟨h', h1, h2⟩ := i2.free
  refine ⟨_, h', List.replicate (n - l.length) 0, ?_, h2, by simp; omega⟩
  simp only [Heap.resizeMember, hI.data, ok_bind, e]
  rw [if_pos (by simp), h1, ok_bind, pure_eq_ok]

theorem Heap.Is.findMember {l r : List Nat} (hI : h.Is (pt a how (.data (l ++ r)) + R)) (hl : l ≠ []) (x : Nat) :
    h.findMember (some a) x l.length = .ok (posOf l x) := by
  have : l.length ≠ 0 := fun e => hl (List.eq_nil_of_length_eq_zero e)
  simp only [Heap.findMember, if_neg this, hI.data, ok_bind, List.take_left]
  rw [if_pos (by simp), pure_eq_ok]

/-- nothing is released by `std::swap` -/
theorem Heap.swapMember_eq (h : Heap) (how : Alloc) (a b : Ptr) : h.swapMember how a b = .ok (b, a, h) := rfl

namespace Bt

/-- the two blocks of a table: addresses and contents -/
structure BV where
  ka : Nat
  va : Nat
  ks : List Nat
  vs : List Nat

variable (c : BtMem) (kw : Nat)

def foot : Option BV → Foot
  | none => 0
  | some V => pt V.ka c.kmem.how (.data V.ks) + pt V.va c.vmem.how (.data V.vs)

/-- the blocks of the view belong to `t`, which holds the pairs `l`, in this order -/
structure Holds (V : BV) (t : BtObj) (l : List (Nat × Nat)) : Prop where
  keys : t.keys = some V.ka
  vals : t.vals = some V.va
  elems : t.elems = l.length
  ne : l ≠ []
  le : l.length ≤ btMax c.strat
  nodup : (l.map Prod.fst).Nodup
  ks : ∃ r, V.ks = l.map Prod.fst ++ r ∧ (c.strat = .arbitrary → l.length + r.length = t.len)
  vs : ∃ r, V.vs = l.map Prod.snd ++ r ∧ (c.strat = .arbitrary → l.length + r.length = t.len)

/-- a table without memory -/
structure Bare (t : BtObj) : Prop where
  keys : t.keys = none
  vals : t.vals = none
  elems : t.elems = 0

def Of : Option BV → BtObj → FMap → Prop
  | none, t, m => Bare t ∧ Abs [] m
  | some V, t, m => ∃ l, Holds c V t l ∧ Abs l m

variable {c} {V : BV} {t : BtObj} {l : List (Nat × Nat)} {k v : Nat}

theorem clear_ok {W : Option BV} {m : FMap} (hO : Of c W t m) (hI : h.Is (foot c W + R)) :
    ∃ h', clear c h t = .ok ({ t with keys := none, vals := none, elems := 0 }, h') ∧ h'.Is R := by
  cases W with
  | none =>
    obtain ⟨b, _⟩ := hO
    refine ⟨h, ?_, hI.cast (by simp [foot])⟩
    simp only [clear, b.keys, b.vals, Heap.clearMember_none, ok_bind, pure_eq_ok]
  | some V =>
    obtain ⟨l, b, _⟩ := hO
    have i1 : h.Is (pt V.ka c.kmem.how (.data V.ks) + (pt V.va c.vmem.how (.data V.vs) + R)) := hI.cast (by simp only [foot]; ac_rfl)
    obtain ⟨h1, a1, a2⟩ := i1.clearMember
    obtain ⟨h2, b1, b2⟩ := a2.clearMember
    exact ⟨h2, by simp only [clear, b.keys, b.vals, a1, b1, ok_bind, pure_eq_ok], b2⟩

theorem destroy_ok {W : Option BV} {m : FMap} (hO : Of c W t m) (hI : h.Is (foot c W + R)) :
    ∃ h', destroy c h t = .ok h' ∧ h'.Is R := by
  obtain ⟨h', h1, h2⟩ := clear_ok hO hI
  exact ⟨h', by simp only [destroy, h1, ok_bind, Heap.clearMember_none, pure_eq_ok], h2⟩

theorem swap_eq (c : BtMem) (h : Heap) (a b : BtObj) : swap c h a b = .ok (b, a, h) := rfl

theorem Of.ptrs {W : Option BV} {m : FMap} {t t' : BtObj} (hO : Of c W t m) (h1 : t'.keys = t.keys) (h2 : t'.vals = t.vals) (h3 : t'.elems = t.elems)
    (h4 : t'.len = t.len) : Of c W t' m := by
  cases W with
  | none => exact ⟨⟨by rw [h1, hO.1.keys], by rw [h2, hO.1.vals], by rw [h3, hO.1.elems]⟩, hO.2⟩
  | some V =>
    obtain ⟨l, b, e⟩ := hO
    exact ⟨l, ⟨by rw [h1, b.keys], by rw [h2, b.vals], by rw [h3, b.elems], b.ne, b.le, b.nodup, by rw [h4]; exact b.ks, by rw [h4]; exact b.vs⟩, e⟩

theorem moveAssign_ok {o : BtObj} {W W' : Option BV} {m m' : FMap} (hO : Of c W t m) (hO' : Of c W' o m') (hI : h.Is (foot c W + (foot c W' + R))) :
    ∃ t' o' h', moveAssign c h t o = .ok (t', o', h') ∧ Of c W' t' m' ∧ Of c none o' FMap.empty ∧ h'.Is (foot c W' + (0 + R)) := by
  obtain ⟨h', h1, h2⟩ := clear_ok hO hI
  refine ⟨{ keys := o.keys, vals := o.vals, elems := o.elems, len := o.len }, { o with keys := none, vals := none, elems := 0 }, h', ?_,
    hO'.ptrs rfl rfl rfl rfl, ⟨⟨rfl, rfl, rfl⟩, Abs.empty⟩, h2.cast (by simp)⟩
  simp only [moveAssign, h1, ok_bind, Heap.assignMember, Heap.clearMember_none, pure_eq_ok]

theorem selfSwap_eq (c : BtMem) (h : Heap) (a : BtObj) : selfSwap c h a = .ok (a, h) := rfl

theorem selfMove_ok {W : Option BV} {m : FMap} (hO : Of c W t m) (hI : h.Is (foot c W + R)) :
    ∃ t' h', selfMove c h t = .ok (t', h') ∧ Of c none t' FMap.empty ∧ h'.Is R := by
  obtain ⟨h', h1, h2⟩ := clear_ok hO hI
  refine ⟨{ t with keys := none, vals := none, elems := 0 }, h', ?_, ⟨⟨rfl, rfl, rfl⟩, Abs.empty⟩, h2⟩
  simp only [selfMove, h1, ok_bind, Heap.selfAssignMember, Heap.clearMember_none, pure_eq_ok]

/-! ## Calls -/

theorem Holds.locate (b : Holds c V t l) (hI : h.Is (foot c (some V) + R)) (k : Nat) : locate h t k = .ok (posOf (l.map Prod.fst) k) := by
  obtain ⟨r, e, _⟩ := b.ks
  have i1 : h.Is (pt V.ka c.kmem.how (.data (l.map Prod.fst ++ r)) + (pt V.va c.vmem.how (.data V.vs) + R)) :=
    hI.cast (by simp only [foot, e]; ac_rfl)
  have := i1.findMember (by simpa using b.ne) k
  rw [List.length_map] at this
  rw [Bt.locate, b.keys, b.elems, this]

theorem Holds.read (b : Holds c V t l) (hI : h.Is (foot c (some V) + R)) (hi : i < l.length) :
    h.word t.keys i = .ok l[i].1 ∧ h.word t.vals i = .ok l[i].2 := by
  obtain ⟨r, e, _⟩ := b.ks
  obtain ⟨r', e', _⟩ := b.vs
  have i1 : h.Is (pt V.ka c.kmem.how (.data V.ks) + (pt V.va c.vmem.how (.data V.vs) + R)) := hI.cast (by simp only [foot]; ac_rfl)
  have i2 : h.Is (pt V.va c.vmem.how (.data V.vs) + (pt V.ka c.kmem.how (.data V.ks) + R)) := hI.cast (by simp only [foot]; ac_rfl)
  rw [b.keys, b.vals]
  refine ⟨i1.word ?_, i2.word ?_⟩
  · rw [e, List.getElem?_append_left (by simpa using hi)]; simp [hi]
  · rw [e', List.getElem?_append_left (by simpa using hi)]; simp [hi]

/-- entry `i` of the values is overwritten -/
theorem Holds.write (b : Holds c V t l) (hI : h.Is (foot c (some V) + R)) (hi : i < l.length) (x : Nat) :
    ∃ h' V', h.setWord t.vals i x = .ok h' ∧ Holds c V' t (l.set i (l[i].1, x)) ∧ h'.Is (foot c (some V') + R) := by
  obtain ⟨r, e, hr⟩ := b.vs
  have i2 : h.Is (pt V.va c.vmem.how (.data V.vs) + (pt V.ka c.kmem.how (.data V.ks) + R)) := hI.cast (by simp only [foot]; ac_rfl)
  obtain ⟨h', h1, h2⟩ := i2.setWord (i := i) (by rw [e]; simp; omega) x
  have ek : (l.set i (l[i].1, x)).map Prod.fst = l.map Prod.fst := by
    rw [List.map_set]
    apply List.ext_getElem (by simp)
    intro j h1 h2
    rw [List.getElem_set]
    split
    · next e => subst e; simp
    · rfl
  refine ⟨h', { V with vs := V.vs.set i x }, by rw [b.vals, h1], ⟨b.keys, b.vals, by simp [b.elems], ?_, by simp [b.le], by rw [ek]; exact b.nodup,
    by rw [ek]; simpa using b.ks, r, ?_, by simpa using hr⟩, h2.cast (by simp only [foot]; ac_rfl)⟩
  · intro e0
    have := congrArg List.length e0
    simp at this
    exact b.ne this
  · simp only [e]
    rw [List.set_append_left _ _ (by simpa using hi), List.map_set]

/-- the new last element -/
theorem put_ok {ka va : Nat} {len : Nat} {kr vr : List Nat}
    (hI : h.Is (pt ka c.kmem.how (.data (l.map Prod.fst ++ kr)) + (pt va c.vmem.how (.data (l.map Prod.snd ++ vr)) + R)))
    (hk : kr ≠ []) (hv : vr ≠ []) (hlk : c.strat = .arbitrary → l.length + kr.length = len) (hlv : c.strat = .arbitrary → l.length + vr.length = len)
    (hle : l.length + 1 ≤ btMax c.strat) (hnd : (l.map Prod.fst).Nodup) (hnew : k ∉ l.map Prod.fst) :
    ∃ h' V', put c h { keys := some ka, vals := some va, elems := l.length + 1, len := len } k v =
        .ok ({ keys := some ka, vals := some va, elems := l.length + 1, len := len }, h', l.length) ∧
      Holds c V' { keys := some ka, vals := some va, elems := l.length + 1, len := len } (l ++ [(k, v % 2 ^ c.vbits)]) ∧ h'.Is (foot c (some V') + R) := by
  obtain ⟨kx, kr, rfl⟩ := List.exists_cons_of_ne_nil hk
  obtain ⟨vx, vr, rfl⟩ := List.exists_cons_of_ne_nil hv
  have es : ∀ (f : Nat × Nat → Nat) (y z : Nat) (r : List Nat), (l.map f ++ y :: r).set l.length z = l.map f ++ z :: r := by
    intro f y z r
    rw [List.set_append_right _ _ (by simp)]
    simp
  obtain ⟨h1, a1, a2⟩ := hI.setWord (i := l.length) (by simp) k
  rw [es] at a2
  have a3 : h1.Is (pt va c.vmem.how (.data (l.map Prod.snd ++ vx :: vr)) + (pt ka c.kmem.how (.data (l.map Prod.fst ++ k :: kr)) + R)) := a2.cast (by ac_rfl)
  obtain ⟨h2, b1, b2⟩ := a3.setWord (i := l.length) (by simp) (v % 2 ^ c.vbits)
  rw [es] at b2
  refine ⟨h2, ⟨ka, va, l.map Prod.fst ++ k :: kr, l.map Prod.snd ++ (v % 2 ^ c.vbits) :: vr⟩, ?_, ⟨rfl, rfl, by simp, by simp, by simpa using hle, ?_, ⟨kr, by simp, ?_⟩,
    ⟨vr, by simp, ?_⟩⟩, b2.cast (by simp only [foot]; ac_rfl)⟩
  · simp only [put, Nat.add_sub_cancel, a1, ok_bind, b1, pure_eq_ok]
  · rw [List.map_append, List.nodup_append]
    refine ⟨hnd, by simp, ?_⟩
    intro x hx y hy e
    simp only [List.map_cons, List.map_nil, List.mem_singleton] at hy
    rw [e, hy] at hx
    exact hnew hx
  · intro e; have := hlk e; simp only [List.length_cons, List.length_append, List.length_nil] at this ⊢; omega
  · intro e; have := hlv e; simp only [List.length_cons, List.length_append, List.length_nil] at this ⊢; omega

/-- `find_or_insert`, in a table without memory -/
theorem Bare.insert (b : Bare t) (hI : h.Is R) (k v : Nat) :
    ∃ h' t' V', Bt.insert c h t k v = .ok (t', h', 0) ∧ Holds c V' t' [(k, v % 2 ^ c.vbits)] ∧ h'.Is (foot c (some V') + R) := by
  obtain ⟨ka, h1, a1, a2⟩ := hI.initMember c.kmem.how 1
  obtain ⟨va, h2, b1, b2⟩ := a2.initMember c.vmem.how 1
  have i1 : h2.Is (pt ka c.kmem.how (.data (([] : List (Nat × Nat)).map Prod.fst ++ [0])) +
      (pt va c.vmem.how (.data (([] : List (Nat × Nat)).map Prod.snd ++ [0])) + R)) := b2.cast (by simp only [List.replicate_one, List.map_nil, List.nil_append]; ac_rfl)
  have hmax : 1 ≤ btMax c.strat := by cases c.strat <;> decide
  obtain ⟨h3, V', c1, c2, c3⟩ := put_ok (len := 1) (k := k) (v := v) i1 (by simp) (by simp) (by simp) (by simp) (by simpa using hmax) (by simp) (by simp)
  refine ⟨h3, _, V', ?_, c2, c3⟩
  rw [Bt.insert, if_pos b.keys]
  simp only [a1, b1]
  exact c1

/-- `find_or_insert`, in a table with elements -/
theorem Holds.insert (b : Holds c V t l) (hI : h.Is (foot c (some V) + R)) (k v : Nat) :
    (∀ x, (k, x) ∈ l → ∃ i, ∃ hi : i < l.length, l[i] = (k, x) ∧ Bt.insert c h t k v = .ok (t, h, i)) ∧
    (k ∉ l.map Prod.fst → l.length + 1 ≤ btMax c.strat → ∃ h' t' V', Bt.insert c h t k v = .ok (t', h', l.length) ∧
      Holds c V' t' (l ++ [(k, v % 2 ^ c.vbits)]) ∧ h'.Is (foot c (some V') + R)) := by
  have hmax := btMax_lt c.strat
  have hle := b.le
  have hk : ¬ t.keys = none := by rw [b.keys]; simp
  constructor
  · intro x hx
    have hmem : k ∈ l.map Prod.fst := List.mem_map.mpr ⟨_, hx, rfl⟩
    obtain ⟨hi, ei⟩ := idx_of_mem b.nodup hx
    have hp : posOf (l.map Prod.fst) k = (l.map Prod.fst).idxOf k := by simp only [posOf, if_pos hmem]
    have hne : posOf (l.map Prod.fst) k ≠ NPOS := by
      rw [Ne, posOf_npos (by simp; omega)]; simpa using hmem
    refine ⟨_, hi, ei, ?_⟩
    rw [Bt.insert, if_neg hk, b.locate hI, ok_bind, if_pos hne, hp, pure_eq_ok]
  · intro hn hroom
    have hnp : posOf (l.map Prod.fst) k = NPOS := (posOf_npos (by simp; omega)).mpr hn
    obtain ⟨kr, ek, lk⟩ := b.ks
    obtain ⟨vr, ev, lv⟩ := b.vs
    have i1 : h.Is (pt V.ka c.kmem.how (.data (l.map Prod.fst ++ kr)) + (pt V.va c.vmem.how (.data (l.map Prod.snd ++ vr)) + R)) :=
      hI.cast (by simp only [foot, ek, ev]; ac_rfl)
    have em : (t.elems + 1) % 2 ^ 32 = l.length + 1 := by rw [b.elems]; exact Nat.mod_eq_of_lt (by omega)
    have start : Bt.insert c h t k v = (if needsResize c t (l.length + 1) then do
        let r ← h.resizeMember c.kmem.how t.keys l.length (btGrow c.strat (l.length + 1))
        let r' ← r.2.resizeMember c.vmem.how t.vals l.length (btGrow c.strat (l.length + 1))
        put c r'.2 { keys := r.1, vals := r'.1, elems := l.length + 1, len := btGrow c.strat (l.length + 1) } k v
      else put c h { t with elems := l.length + 1 } k v) := by
      rw [Bt.insert, if_neg hk, b.locate hI, ok_bind, hnp, if_neg (by simp)]
      simp only [em, Nat.add_sub_cancel]
    by_cases hr : needsResize c t (l.length + 1) = true
    · have hg := btGrow_ge hroom
      rw [if_pos hr] at start
      obtain ⟨ka, h1, kr', a1, a2, a3⟩ := i1.resizeMember (n := btGrow c.strat (l.length + 1)) (by simp; omega)
      have a4 : h1.Is (pt V.va c.vmem.how (.data (l.map Prod.snd ++ vr)) + (pt ka c.kmem.how (.data (l.map Prod.fst ++ kr')) + R)) := a2.cast (by ac_rfl)
      obtain ⟨va, h2, vr', b1, b2, b3⟩ := a4.resizeMember (n := btGrow c.strat (l.length + 1)) (by simp; omega)
      rw [List.length_map] at a1 a3 b1 b3
      have b4 : h2.Is (pt ka c.kmem.how (.data (l.map Prod.fst ++ kr')) + (pt va c.vmem.how (.data (l.map Prod.snd ++ vr')) + R)) := b2.cast (by ac_rfl)
      obtain ⟨h3, V', c1, c2, c3⟩ := put_ok (k := k) (v := v) (len := btGrow c.strat (l.length + 1)) b4
        (by intro e; rw [e] at a3; simp at a3; omega) (by intro e; rw [e] at b3; simp at b3; omega)
        (fun _ => a3) (fun _ => b3) hroom b.nodup hn
      refine ⟨h3, _, V', ?_, c2, c3⟩
      rw [start, b.keys, a1, ok_bind, b.vals]
      simp only [b1, ok_bind]
      exact c1
    · have ha : c.strat = .arbitrary ∧ l.length + 1 < t.len := by
        unfold needsResize at hr
        cases hs : c.strat with
        | incremental => rw [hs] at hr; simp at hr
        | arbitrary => rw [hs] at hr; simp at hr; exact ⟨rfl, hr⟩
      have g1 := lk ha.1
      have g2 := lv ha.1
      obtain ⟨h3, V', c1, c2, c3⟩ := put_ok (k := k) (v := v) (len := t.len) i1 (by intro e; rw [e] at g1; simp at g1; omega)
        (by intro e; rw [e] at g2; simp at g2; omega) lk lv hroom b.nodup hn
      refine ⟨h3, _, V', ?_, c2, c3⟩
      rw [start, if_neg hr]
      have : ({ t with elems := l.length + 1 } : BtObj) = { keys := some V.ka, vals := some V.va, elems := l.length + 1, len := t.len } := by
        rw [← b.keys, ← b.vals]
      rw [this]
      exact c1

/-- the loop of `erase` moves everything behind the gap one step to the front -/
theorem shift_ok {ka va : Nat} {kr vr : List Nat} (hk : t.keys = some ka) (hv : t.vals = some va) :
    ∀ (q p q' p' : List Nat) (x x' : Nat) (h : Heap), p.length = p'.length → q.length = q'.length →
      h.Is (pt ka c.kmem.how (.data (p ++ x :: q ++ kr)) + (pt va c.vmem.how (.data (p' ++ x' :: q' ++ vr)) + R)) →
      ∃ h' y y', shift h t (p.length + 1) q.length = .ok h' ∧
        h'.Is (pt ka c.kmem.how (.data (p ++ q ++ y :: kr)) + (pt va c.vmem.how (.data (p' ++ q' ++ y' :: vr)) + R)) := by
  intro q
  induction q with
  | nil =>
    intro p q' p' x x' h hp hq hI
    have : q' = [] := List.eq_nil_of_length_eq_zero hq.symm
    subst this
    exact ⟨h, x, x', rfl, hI.cast (by simp)⟩
  | cons z q ih =>
    intro p q' p' x x' h hp hq hI
    obtain ⟨z', q', rfl⟩ : ∃ z' r, q' = z' :: r := by
      cases q' with
      | nil => simp at hq
      | cons z' r => exact ⟨z', r, rfl⟩
    have es : ∀ (p q r : List Nat) (x z : Nat), (p ++ x :: z :: q ++ r).set p.length z = (p ++ [z]) ++ z :: q ++ r := by
      intro p q r x z
      rw [List.append_assoc, List.set_append_right _ _ (Nat.le_refl _)]
      simp
    have eg : ∀ (p q r : List Nat) (x z : Nat), (p ++ x :: z :: q ++ r)[p.length + 1]? = some z := by
      intro p q r x z
      simp
    have w1 := hI.word (eg p q kr x z)
    obtain ⟨h1, a1, a2⟩ := hI.setWord (i := p.length) (by simp) z
    rw [es] at a2
    have a3 : h1.Is (pt va c.vmem.how (.data (p' ++ x' :: z' :: q' ++ vr)) + (pt ka c.kmem.how (.data ((p ++ [z]) ++ z :: q ++ kr)) + R)) := a2.cast (by ac_rfl)
    have w2 := a3.word (eg p' q' vr x' z')
    obtain ⟨h2, b1, b2⟩ := a3.setWord (i := p'.length) (by simp) z'
    rw [es] at b2
    obtain ⟨h3, y, y', c1, c2⟩ := ih (p ++ [z]) q' (p' ++ [z']) z z' h2 (by simp [hp]) (by simpa using hq) (b2.cast (by ac_rfl))
    refine ⟨h3, y, y', ?_, c2.cast (by simp)⟩
    rw [List.length_append, List.length_singleton] at c1
    rw [← hp] at w2 b1
    simp only [List.length_cons, shift, hk, hv, w1, w2, ok_bind, Nat.add_sub_cancel, a1, b1]
    exact c1

theorem Holds.erase (b : Holds c V t l) (hI : h.Is (foot c (some V) + R)) (k : Nat) :
    (k ∉ l.map Prod.fst → Bt.erase c h t k = .ok (t, h, 0)) ∧
    (∀ x, (k, x) ∈ l → ∃ i, ∃ hi : i < l.length, l[i] = (k, x) ∧ ∃ h' t', Bt.erase c h t k = .ok (t', h', 1) ∧
      ((l.eraseIdx i = [] ∧ Bare t' ∧ h'.Is R) ∨ ∃ V', Holds c V' t' (l.eraseIdx i) ∧ h'.Is (foot c (some V') + R))) := by
  have hmax := btMax_lt c.strat
  have hle := b.le
  have hk : ¬ t.keys = none := by rw [b.keys]; simp
  constructor
  · intro hn
    rw [Bt.erase, if_neg hk, b.locate hI, ok_bind, if_pos ((posOf_npos (by simp; omega)).mpr hn), pure_eq_ok]
  · intro x hx
    have hmem : k ∈ l.map Prod.fst := List.mem_map.mpr ⟨_, hx, rfl⟩
    obtain ⟨hi, ei⟩ := idx_of_mem b.nodup hx
    have hp : posOf (l.map Prod.fst) k = (l.map Prod.fst).idxOf k := by simp only [posOf, if_pos hmem]
    have hne : ¬ posOf (l.map Prod.fst) k = NPOS := by
      rw [posOf_npos (by simp; omega)]; simpa using hmem
    generalize (l.map Prod.fst).idxOf k = i at *
    refine ⟨i, hi, ei, ?_⟩
    obtain ⟨kr, ek, lk⟩ := b.ks
    obtain ⟨vr, ev, lv⟩ := b.vs
    have sp : l = l.take i ++ l[i] :: l.drop (i + 1) := by
      conv => lhs; rw [← List.take_append_drop i l, List.drop_eq_getElem_cons hi]
    have em : ∀ f : Nat × Nat → Nat, l.map f = (l.take i).map f ++ f l[i] :: (l.drop (i + 1)).map f := fun f => by
      have := congrArg (List.map f) sp
      rwa [List.map_append, List.map_cons] at this
    have ee : ∀ f : Nat × Nat → Nat, (l.eraseIdx i).map f = (l.take i).map f ++ (l.drop (i + 1)).map f := fun f => by
      rw [List.eraseIdx_eq_take_drop_succ, List.map_append]
    have i1 : h.Is (pt V.ka c.kmem.how (.data ((l.take i).map Prod.fst ++ l[i].1 :: (l.drop (i + 1)).map Prod.fst ++ kr)) +
        (pt V.va c.vmem.how (.data ((l.take i).map Prod.snd ++ l[i].2 :: (l.drop (i + 1)).map Prod.snd ++ vr)) + R)) := by
      refine hI.cast ?_
      rw [foot, ek, ev, em Prod.fst, em Prod.snd]
      ac_rfl
    obtain ⟨h1, y, y', a1, a2⟩ := shift_ok b.keys b.vals _ _ _ _ _ _ h (by simp) (by simp) i1
    rw [List.length_map, List.length_map, List.length_take, List.length_drop, Nat.min_eq_left (by omega)] at a1
    rw [← ee, ← ee] at a2
    have el : (l.eraseIdx i).length = l.length - 1 := List.length_eraseIdx_of_lt hi
    have start : Bt.erase c h t k = (if l.length - 1 = 0 then do
          let r ← clear c h1 { t with elems := l.length - 1 }
          return (r.1, r.2, 1)
        else .ok ({ t with elems := l.length - 1 }, h1, 1)) := by
      rw [Bt.erase, if_neg hk, b.locate hI, ok_bind, if_neg hne, hp, b.elems, a1, ok_bind]
      simp only [pure_eq_ok]
    by_cases hz : l.length - 1 = 0
    · rw [if_pos hz] at start
      obtain ⟨h2, b1, b2⟩ := a2.clearMember
      obtain ⟨h3, c1, c2⟩ := b2.clearMember
      refine ⟨h3, { t with keys := none, vals := none, elems := 0 }, ?_, .inl ⟨List.eq_nil_of_length_eq_zero (el.trans hz), ⟨rfl, rfl, rfl⟩, c2⟩⟩
      rw [start]
      simp only [clear, b.keys, b.vals, b1, c1, ok_bind, pure_eq_ok]
    · rw [if_neg hz] at start
      refine ⟨h1, _, start, .inr ⟨⟨V.ka, V.va, (l.eraseIdx i).map Prod.fst ++ y :: kr, (l.eraseIdx i).map Prod.snd ++ y' :: vr⟩, ⟨b.keys, b.vals, el.symm, ?_, by omega, ?_, ⟨y :: kr, rfl, ?_⟩, ⟨y' :: vr, rfl, ?_⟩⟩, a2.cast (by simp only [foot]; ac_rfl)⟩⟩
      · intro e; rw [e] at el; simp at el; omega
      · exact ((List.eraseIdx_sublist l i).map Prod.fst).nodup b.nodup
      · intro e; have := lk e; simp only [List.length_cons, el]; omega
      · intro e; have := lv e; simp only [List.length_cons, el]; omega

theorem Holds.shrink (b : Holds c V t l) (hI : h.Is (foot c (some V) + R)) :
    ∃ h' t' V', Bt.shrink c h t = .ok (t', h') ∧ Holds c V' t' l ∧ h'.Is (foot c (some V') + R) := by
  have hk : ¬ t.keys = none := by rw [b.keys]; simp
  rw [Bt.shrink, if_neg hk]
  by_cases hc : capacity c t > t.elems
  · rw [if_pos hc]
    obtain ⟨kr, ek, lk⟩ := b.ks
    obtain ⟨vr, ev, lv⟩ := b.vs
    have i1 : h.Is (pt V.ka c.kmem.how (.data (l.map Prod.fst ++ kr)) + (pt V.va c.vmem.how (.data (l.map Prod.snd ++ vr)) + R)) :=
      hI.cast (by simp only [foot, ek, ev]; ac_rfl)
    obtain ⟨ka, h1, kr', a1, a2, a3⟩ := i1.resizeMember (n := l.length) (by simp)
    have a4 : h1.Is (pt V.va c.vmem.how (.data (l.map Prod.snd ++ vr)) + (pt ka c.kmem.how (.data (l.map Prod.fst ++ kr')) + R)) := a2.cast (by ac_rfl)
    obtain ⟨va, h2, vr', b1, b2, b3⟩ := a4.resizeMember (n := l.length) (by simp)
    rw [List.length_map] at a1 a3 b1 b3
    refine ⟨h2, { keys := some ka, vals := some va, elems := l.length, len := l.length }, ⟨ka, va, _, _⟩, ?_,
      ⟨rfl, rfl, rfl, b.ne, b.le, b.nodup, ⟨kr', rfl, fun _ => a3⟩, vr', rfl, fun _ => b3⟩, b2.cast (by simp only [foot]; ac_rfl)⟩
    rw [b.keys, b.elems, a1, ok_bind, b.vals]
    simp only [b1, ok_bind, pure_eq_ok]
  · rw [if_neg hc]
    exact ⟨h, t, V, rfl, b, hI⟩

/-- `find_or_insert` in terms of the finite map -/
theorem Of.insert {W : Option BV} {m : FMap} (hO : Of c W t m) (hI : h.Is (foot c W + R)) (k v : Nat) (hroom : m.get k = none → m.size + 1 ≤ btMax c.strat) :
    ∃ h' t' V' i x l', Bt.insert c h t k v = .ok (t', h', i) ∧ Holds c V' t' l' ∧ h'.Is (foot c (some V') + R) ∧ (∃ hi : i < l'.length, l'[i] = (k, x)) ∧
      ((m.get k = some x ∧ Abs l' m) ∨ (m.get k = none ∧ x = v % 2 ^ c.vbits ∧ Abs l' (m.put k x) ∧ ∃ l, Abs l m ∧ l' = l ++ [(k, x)])) := by
  cases W with
  | none =>
    obtain ⟨b, ha⟩ := hO
    obtain ⟨h', t', V', h1, h2, h3⟩ := b.insert (c := c) (show h.Is R from hI.cast (by simp [foot])) k v
    have hn : m.get k = none := ha.none.mpr (by simp)
    exact ⟨h', t', V', 0, _, _, h1, h2, h3, ⟨by simp, rfl⟩, .inr ⟨hn, rfl, ha.put_new (by simp), [], ha, rfl⟩⟩
  | some V =>
    obtain ⟨l, b, ha⟩ := hO
    obtain ⟨g1, g2⟩ := b.insert hI k v
    cases hg : m.get k with
    | some x =>
      obtain ⟨i, hi, e1, e2⟩ := g1 x ((ha.get k x).mp hg)
      exact ⟨h, t, V, i, x, l, e2, b, hI, ⟨hi, e1⟩, .inl ⟨rfl, ha⟩⟩
    | none =>
      have hn := ha.none.mp hg
      obtain ⟨h', t', V', e1, e2, e3⟩ := g2 hn (by rw [← ha.size]; exact hroom hg)
      exact ⟨h', t', V', l.length, v % 2 ^ c.vbits, _, e1, e2, e3, ⟨by simp, by simp⟩,
        .inr ⟨rfl, rfl, (ha.put_new hn).perm (perm_snoc _ _), l, ha, rfl⟩⟩

theorem Of.find {W : Option BV} {m : FMap} (hO : Of c W t m) (hI : h.Is (foot c W + R)) (k : Nat) :
    ∃ n, Bt.find h t k = .ok n ∧ ((m.get k = none ∧ t.elems ≤ n) ∨
      ∃ x, m.get k = some x ∧ n < t.elems ∧ h.word t.keys n = .ok k ∧ h.word t.vals n = .ok x) := by
  cases W with
  | none =>
    obtain ⟨b, ha⟩ := hO
    exact ⟨NPOS, by rw [Bt.find, if_pos b.keys], .inl ⟨ha.none.mpr (by simp), by rw [b.elems]; exact Nat.zero_le _⟩⟩
  | some V =>
    obtain ⟨l, b, ha⟩ := hO
    have hk : ¬ t.keys = none := by rw [b.keys]; simp
    have hmax := btMax_lt c.strat
    have hle := b.le
    refine ⟨_, by rw [Bt.find, if_neg hk, b.locate hI], ?_⟩
    cases hg : m.get k with
    | some x =>
      obtain ⟨hi, ei⟩ := idx_of_mem b.nodup ((ha.get k x).mp hg)
      have hmem : k ∈ l.map Prod.fst := List.mem_map.mpr ⟨_, (ha.get k x).mp hg, rfl⟩
      have hp : posOf (l.map Prod.fst) k = (l.map Prod.fst).idxOf k := by simp only [posOf, if_pos hmem]
      obtain ⟨r1, r2⟩ := b.read hI hi
      rw [ei] at r1 r2
      rw [hp, b.elems]
      exact .inr ⟨x, rfl, hi, r1, r2⟩
    | none =>
      have hp : posOf (l.map Prod.fst) k = NPOS := (posOf_npos (by simp; omega)).mpr (ha.none.mp hg)
      refine .inl ⟨rfl, ?_⟩
      rw [hp, b.elems]
      simp only [NPOS]
      omega

theorem Of.size {W : Option BV} {m : FMap} (hO : Of c W t m) : t.elems = m.size := by
  cases W with
  | none => rw [hO.1.elems, hO.2.size]; rfl
  | some V => obtain ⟨l, b, ha⟩ := hO; rw [b.elems, ha.size]

/-- every call does what it should do -/
theorem call_ok {W : Option BV} {m : FMap} (hO : Of c W t m) (hI : h.Is (foot c W + R)) (op : MapOp) (hop : BtValid kw op)
    (hroom : (m.step (fun v => v % 2 ^ c.vbits) op).1.size ≤ btMax c.strat) :
    ∃ W' t' h', call c h t op = .ok (t', h', (m.step (fun v => v % 2 ^ c.vbits) op).2) ∧ Of c W' t' (m.step (fun v => v % 2 ^ c.vbits) op).1 ∧
      h'.Is (foot c W' + R) := by
  cases op with
  | insert k v =>
    obtain ⟨h', t', V', i, x, l', h1, h2, h3, ⟨hi, ei⟩, h4⟩ := hO.insert hI k v (fun e => by simpa [FMap.step, e, FMap.put] using hroom)
    obtain ⟨r1, r2⟩ := h2.read h3 hi
    rw [ei] at r1 r2
    refine ⟨some V', t', h', ?_, ⟨l', h2, ?_⟩, h3⟩
    · simp only [call, h1, ok_bind, r1, r2, pure_eq_ok]
      rcases h4 with ⟨e1, _⟩ | ⟨e1, rfl, _⟩ <;> simp [FMap.step, e1]
    · rcases h4 with ⟨e1, ha⟩ | ⟨e1, rfl, ha, _⟩
      · simpa [FMap.step, e1] using ha
      · simpa [FMap.step, e1] using ha
  | get k =>
    obtain ⟨h', t', V', i, x, l', h1, h2, h3, ⟨hi, ei⟩, h4⟩ := hO.insert hI k 0 (fun e => by simpa [FMap.step, e, FMap.put] using hroom)
    obtain ⟨r1, r2⟩ := h2.read h3 hi
    rw [ei] at r1 r2
    refine ⟨some V', t', h', ?_, ⟨l', h2, ?_⟩, h3⟩
    · simp only [call, h1, ok_bind, r2, pure_eq_ok]
      rcases h4 with ⟨e1, _⟩ | ⟨e1, rfl, _⟩ <;> simp [FMap.step, e1]
    · rcases h4 with ⟨e1, ha⟩ | ⟨e1, rfl, ha, _⟩
      · simpa [FMap.step, e1] using ha
      · simpa [FMap.step, e1] using ha
  | assign k v =>
    obtain ⟨h', t', V', i, x, l', h1, h2, h3, ⟨hi, ei⟩, h4⟩ := hO.insert hI k 0 (fun e => by simpa [FMap.step, e, FMap.put] using hroom)
    obtain ⟨h'', V'', w1, w2, w3⟩ := h2.write h3 hi (v % 2 ^ c.vbits)
    rw [ei] at w2
    refine ⟨some V'', t', h'', ?_, ⟨_, w2, ?_⟩, w3⟩
    · simp only [call, h1, ok_bind, w1, pure_eq_ok, FMap.step]
    · have hp : l'.Perm ((k, x) :: l'.eraseIdx i) := by rw [← ei]; exact (getElem_cons_eraseIdx hi).symm
      refine Abs.perm ?_ (set_perm hi _)
      rcases h4 with ⟨e1, ha⟩ | ⟨e1, _, _, l, ha, rfl⟩
      · exact ha.put_old hp h2.nodup
      · have hp' := ((perm_snoc l _).symm.trans hp).cons_inv
        exact (ha.put_new (ha.none.mp e1)).perm (hp'.symm.cons _)
  | find k =>
    obtain ⟨n, f1, f2⟩ := hO.find hI k
    refine ⟨W, t, h, ?_, ?_, hI⟩
    · rcases f2 with ⟨e1, e2⟩ | ⟨x, e1, e2, e3, e4⟩
      · simp only [call, f1, ok_bind, if_pos e2, FMap.step, e1, pure_eq_ok]
      · simp only [call, f1, ok_bind, if_neg (show ¬ t.elems ≤ n by omega), e3, e4, FMap.step, e1, pure_eq_ok]
    · rcases f2 with ⟨e1, _⟩ | ⟨x, e1, _⟩ <;> simpa [FMap.step, e1] using hO
  | count k =>
    obtain ⟨n, f1, f2⟩ := hO.find hI k
    refine ⟨W, t, h, ?_, hO, hI⟩
    rcases f2 with ⟨e1, e2⟩ | ⟨x, e1, e2, e3, e4⟩
    · simp only [call, f1, ok_bind, if_pos e2, FMap.step, e1, pure_eq_ok]; rfl
    · simp only [call, f1, ok_bind, if_neg (show ¬ t.elems ≤ n by omega), FMap.step, e1, pure_eq_ok]; rfl
  | erase k =>
    cases W with
    | none =>
      obtain ⟨b, ha⟩ := hO
      have hn : m.get k = none := ha.none.mpr (by simp)
      refine ⟨none, t, h, ?_, ⟨b, ?_⟩, hI⟩
      · simp [call, Bt.erase, b.keys, FMap.step, hn]
      · rw [show (m.step (fun v => v % 2 ^ c.vbits) (.erase k)).1 = m.del k from rfl, ha.del_absent (by simp)]; exact ha
    | some V =>
      obtain ⟨l, b, ha⟩ := hO
      obtain ⟨g1, g2⟩ := b.erase hI k
      cases hg : m.get k with
      | some x =>
        obtain ⟨i, hi, ei, h', t', e1, e2⟩ := g2 x ((ha.get k x).mp hg)
        have hp : l.Perm ((k, x) :: l.eraseIdx i) := by rw [← ei]; exact (getElem_cons_eraseIdx hi).symm
        have ha' := ha.del hp b.nodup
        rcases e2 with ⟨f1, f2, f3⟩ | ⟨V', f1, f2⟩
        · rw [f1] at ha'
          exact ⟨none, t', h', by simp [call, e1, FMap.step, hg], ⟨f2, ha'⟩, f3.cast (by simp [foot])⟩
        · exact ⟨some V', t', h', by simp [call, e1, FMap.step, hg], ⟨_, f1, ha'⟩, f2⟩
      | none =>
        have hn := ha.none.mp hg
        refine ⟨some V, t, h, by simp [call, g1 hn, FMap.step, hg], ⟨l, b, ?_⟩, hI⟩
        rw [show (m.step (fun v => v % 2 ^ c.vbits) (.erase k)).1 = m.del k from rfl, ha.del_absent hn]; exact ha
  | size => exact ⟨W, t, h, by simp only [call, FMap.step, hO.size], hO, hI⟩
  | empty => exact ⟨W, t, h, by simp only [call, FMap.step, hO.size], hO, hI⟩
  | reserve n => exact absurd hop (by simp [BtValid])
  | shrink =>
    cases W with
    | none => exact ⟨none, t, h, by simp [call, Bt.shrink, hO.1.keys, FMap.step], hO, hI⟩
    | some V =>
      obtain ⟨l, b, ha⟩ := hO
      obtain ⟨h', t', V', e1, e2, e3⟩ := b.shrink hI
      exact ⟨some V', t', h', by simp [call, e1, FMap.step], ⟨l, e2, ha⟩, e3⟩
  | clear =>
    obtain ⟨h', e1, e2⟩ := clear_ok hO hI
    exact ⟨none, { t with keys := none, vals := none, elems := 0 }, h', by simp [call, e1, FMap.step], ⟨⟨rfl, rfl, rfl⟩, Abs.empty⟩, e2.cast (by simp [foot])⟩

/-- the functions of the class work for a single table -/
def laws (c : BtMem) (kw : Nat) : ObjLaws (cls c) (mapObjects (fun v => v % 2 ^ c.vbits))
    (fun m op => BtValid kw op ∧ (m.step (fun v => v % 2 ^ c.vbits) op).1.size ≤ btMax c.strat) where
  View := Option BV
  foot := foot c
  Of := Of c
  new := ⟨none, ⟨⟨rfl, rfl, rfl⟩, Abs.empty⟩, rfl⟩
  call := fun _ _ _ op _ _ hO hI hP => call_ok kw hO hI op hP.1 hP.2
  swap := swap_eq c
  moveAssign := fun _ _ _ _ _ _ W' _ hO hO' hI => ⟨W', none, moveAssign_ok hO hO' hI⟩
  selfSwap := selfSwap_eq c
  selfMove := fun _ _ _ _ _ hO hI => by
    obtain ⟨t', h', h1, h2, h3⟩ := selfMove_ok hO hI
    exact ⟨none, t', h', h1, h2, h3.cast (by simp [foot])⟩
  destroy := fun _ _ _ _ _ hO hI => destroy_ok hO hI

end Bt
end SC.Own
