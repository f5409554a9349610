import Verif.Bucket.PlainLemmas
import Verif.Table.Ops
/-!
# `array_overflow`, overflow.hpp:63-162
-/
namespace SC

/-- number of bits of `key_type` and `value_type`, and the bits of a resized `tdc::BitVector` -/
structure ArrEnv where
  ks : Nat
  vs : Nat
  fresh : (old : Bool) → (len i : Nat) → Bool

/-- the members, overflow.hpp:70-74 -/
structure ArrOv where
  keys : PlainB
  vals : PlainB
  /-- `m_elements` -/
  elems : Nat
  /-- `m_bucketfull` -/
  bits : Nat → Bool
  nbits : Nat

/-- `m_length`, overflow.hpp:72 and 8 -/
abbrev arrLength : Nat := 256

/-- The loop of `erase`, overflow.hpp:117-120: `for(i = m_elements; i < position; --i)`; for `i = 0` the index `i-1` is
`2^64-1`. -/
def ArrOv.eraseLoop (c : ArrEnv) (p : Nat) : Nat → PlainB → PlainB → Res (PlainB × PlainB)
  | 0, ks, vs =>
    if 0 < p then do
      let x ← (plainOps c.ks).read ks 0 0
      let ks ← (plainOps c.ks).write ks NPOS x 0
      return (ks, vs)
    else .ok (ks, vs)
  | i + 1, ks, vs =>
    if i + 1 < p then do
      let x ← (plainOps c.ks).read ks (i + 1) 0
      let ks ← (plainOps c.ks).write ks i x 0
      let y ← (plainOps c.vs).read vs (i + 1) 0
      let vs ← (plainOps c.vs).write vs i y 0
      ArrOv.eraseLoop c p i ks vs
    else .ok (ks, vs)

/-- `array_overflow` -/
def arrOverflow (c : ArrEnv) : OverflowOps ArrOv where
  -- overflow.hpp:82-85
  new _ _ := { keys := some (List.replicate arrLength none), vals := some (List.replicate arrLength none), elems := 0,
               bits := fun _ => false, nbits := 0 }
  -- overflow.hpp:137-139
  resizeBuckets o n := .ok { o with bits := fun i => c.fresh (o.bits i) n i, nbits := n }
  -- overflow.hpp:142-145
  needConsult o b := if b < o.nbits then .ok (o.bits b) else .error .oob
  -- overflow.hpp:77, 78
  size o := o.elems
  capacity _ := arrLength
  -- overflow.hpp:87-95
  firstPosition _ := 0
  nextPosition _ p := p + 1
  previousPosition _ p := p - 1
  -- overflow.hpp:80
  validPosition o p := decide (p < o.elems)
  -- overflow.hpp:111-114
  clear o := { o with keys := (plainOps c.ks).clear o.keys, vals := (plainOps c.vs).clear o.vals }
  -- overflow.hpp:130-136
  insert o b k v :=
    if b < o.nbits then do
      let ks ← (plainOps c.ks).write o.keys o.elems k 0
      let vs ← (plainOps c.vs).write o.vals o.elems v 0
      return ({ o with keys := ks, vals := vs, elems := o.elems + 1, bits := upd o.bits b true }, o.elems)
    else .error .oob
  -- overflow.hpp:146-148
  find o k := (plainOps c.ks).find o.keys k arrLength 0
  -- overflow.hpp:149-160
  read o p := (plainOps c.vs).read o.vals p 0
  write o p v := do
    let vs ← (plainOps c.vs).write o.vals p v 0
    return { o with vals := vs }
  key o p := (plainOps c.ks).read o.keys p 0
  -- overflow.hpp:115-122
  erase o p := do
    let (ks, vs) ← ArrOv.eraseLoop c p o.elems o.keys o.vals
    return { o with keys := ks, vals := vs, elems := o.elems - 1 }

/-- The array holds the pairs `l` in front; behind them are unwritten cells or the remains of erased pairs. -/
structure ArrRep (c : ArrEnv) (o : ArrOv) (l : List (Nat × Nat)) : Prop where
  elems : o.elems = l.length
  keys : ∃ rest : Cells, o.keys = some (l.map (fun e => some e.1) ++ rest) ∧ l.length + rest.length = arrLength
  vals : ∃ rest : Cells, o.vals = some (l.map (fun e => some e.2) ++ rest) ∧ l.length + rest.length = arrLength
  lt : ∀ e ∈ l, e.1 < 2 ^ c.ks ∧ e.2 < 2 ^ c.vs

variable {c : ArrEnv} {o : ArrOv} {l : List (Nat × Nat)}

theorem ArrRep.new (c : ArrEnv) (kw vw : Nat) : ArrRep c ((arrOverflow c).new kw vw) [] :=
  ⟨rfl, ⟨List.replicate arrLength none, rfl, by rw [List.length_replicate]; rfl⟩,
    ⟨List.replicate arrLength none, rfl, by rw [List.length_replicate]; rfl⟩, by simp⟩

theorem ArrRep.insert (h : ArrRep c o l) {b k v : Nat} (hb : b < o.nbits) (hlt : o.elems < arrLength) :
    ∃ o', (arrOverflow c).insert o b k v = .ok (o', l.length) ∧ ArrRep c o' (l ++ [(k % 2 ^ c.ks, v % 2 ^ c.vs)]) := by
  obtain ⟨h1, ⟨r1, h2, h3⟩, ⟨r2, h4, h5⟩, hlt'⟩ := h
  rw [h1] at hlt
  obtain ⟨a, r1, rfl⟩ : ∃ a r, r1 = a :: r := by
    cases r1 with
    | nil => simp at h3; omega
    | cons a r => exact ⟨a, r, rfl⟩
  obtain ⟨a2, r2, rfl⟩ : ∃ a r, r2 = a :: r := by
    cases r2 with
    | nil => simp at h5; omega
    | cons a r => exact ⟨a, r, rfl⟩
  have e1 := cellWrite_append (l.map (fun e => some e.1)) r1 a (k % 2 ^ c.ks)
  have e2 := cellWrite_append (l.map (fun e => some e.2)) r2 a2 (v % 2 ^ c.vs)
  rw [List.length_map] at e1 e2
  refine ⟨{ o with keys := some (l.map (fun e => some e.1) ++ some (k % 2 ^ c.ks) :: r1),
                   vals := some (l.map (fun e => some e.2) ++ some (v % 2 ^ c.vs) :: r2),
                   elems := l.length + 1, bits := upd o.bits b true }, ?_, ⟨?_, ⟨r1, ?_, ?_⟩, ⟨r2, ?_, ?_⟩, ?_⟩⟩
  · simp only [arrOverflow, plainOps, if_pos hb, h1, h2, h4, e1, e2, ok_bind]; rfl
  · simp
  · simp
  · simp only [List.length_cons, List.length_append, List.length_nil] at *; omega
  · simp
  · simp only [List.length_cons, List.length_append, List.length_nil] at *; omega
  · intro e he
    rcases List.mem_append.mp he with h | h
    · exact hlt' e h
    · rw [List.mem_singleton.mp h]
      exact ⟨Nat.mod_lt _ (Nat.two_pow_pos _), Nat.mod_lt _ (Nat.two_pow_pos _)⟩

/-- assigning to `operator[](p)` -/
theorem ArrRep.write (h : ArrRep c o l) {p v : Nat} (hp : p < l.length) :
    ∃ o', (arrOverflow c).write o p v = .ok o' ∧ ArrRep c o' (l.set p (l[p].1, v % 2 ^ c.vs)) ∧ o'.nbits = o.nbits := by
  obtain ⟨h1, ⟨r1, h2, h3⟩, ⟨r2, h4, h5⟩, hlt'⟩ := h
  refine ⟨{ o with vals := some ((l.map (fun e => some e.2) ++ r2).set p (some (v % 2 ^ c.vs))) }, ?_, ⟨?_, ⟨r1, ?_, ?_⟩, ⟨r2, ?_, ?_⟩, ?_⟩, rfl⟩
  · have : p < (l.map (fun e => some e.2) ++ r2).length := by rw [List.length_append, List.length_map]; omega
    simp only [arrOverflow, plainOps, h4, cellWrite, if_pos this, ok_bind, pure_eq_ok]
  · simpa using h1
  · show o.keys = _
    rw [h2, List.map_set]
    congr 2
    refine (List.ext_getElem (by simp) ?_).symm
    intro i g1 g2
    rw [List.getElem_set]
    split
    · subst p; simp
    · rfl
  · simpa using h3
  · show some _ = some _
    rw [List.map_set, List.set_append_left _ _ (by simpa using hp)]
  · simpa using h5
  · intro e he
    rcases List.mem_or_eq_of_mem_set he with h | h
    · exact hlt' e h
    · rw [h]
      exact ⟨(hlt' _ (List.getElem_mem hp)).1, Nat.mod_lt _ (Nat.two_pow_pos _)⟩

theorem ArrRep.dropLast (h : ArrRep c o l) (hne : l ≠ []) : ArrRep c { o with elems := o.elems - 1 } l.dropLast := by
  obtain ⟨h1, ⟨r1, h2, h3⟩, ⟨r2, h4, h5⟩, hlt'⟩ := h
  have hd := List.dropLast_concat_getLast hne
  have hlen : 0 < l.length := List.length_pos_iff.mpr hne
  have e : ∀ (f : Nat × Nat → Option Nat) (r : Cells), l.map f ++ r = l.dropLast.map f ++ (f (l.getLast hne) :: r) := by
    intro f r
    conv => lhs; rw [← hd]
    simp
  refine ⟨by simp [h1], ⟨_, by rw [h2, e], ?_⟩, ⟨_, by rw [h4, e], ?_⟩, fun x hx => hlt' x (List.dropLast_subset l hx)⟩
  · simp only [List.length_cons, List.length_dropLast]; omega
  · simp only [List.length_cons, List.length_dropLast]; omega

/-- whatever position is erased, the last pair disappears -/
theorem ArrRep.erase (h : ArrRep c o l) {p : Nat} (hp : p < l.length) :
    ∃ o', (arrOverflow c).erase o p = .ok o' ∧ ArrRep c o' l.dropLast ∧ o'.nbits = o.nbits := by
  have hne : l ≠ [] := by intro e; subst e; simp at hp
  have hloop : ArrOv.eraseLoop c p o.elems o.keys o.vals = .ok (o.keys, o.vals) := by
    rw [h.elems]
    obtain ⟨n, hn⟩ : ∃ n, l.length = n + 1 := ⟨l.length - 1, by omega⟩
    rw [hn, ArrOv.eraseLoop, if_neg (by omega)]
  refine ⟨{ o with elems := o.elems - 1 }, ?_, h.dropLast hne, rfl⟩
  simp only [arrOverflow, hloop, ok_bind, pure_eq_ok]

theorem ArrRep.key (h : ArrRep c o l) {p : Nat} (hp : p < l.length) : (arrOverflow c).key o p = .ok l[p].1 := by
  obtain ⟨r, h2, _⟩ := h.keys
  have := cellRead_rep (xs := l.map Prod.fst) (rest := r) (i := p) (by simpa using hp)
  simp only [List.map_map] at this
  simp only [arrOverflow, plainOps, h2]
  simpa [Function.comp_def] using this

theorem ArrRep.read (h : ArrRep c o l) {p : Nat} (hp : p < l.length) : (arrOverflow c).read o p = .ok l[p].2 := by
  obtain ⟨r, h2, _⟩ := h.vals
  have := cellRead_rep (xs := l.map Prod.snd) (rest := r) (i := p) (by simpa using hp)
  simp only [List.map_map] at this
  simp only [arrOverflow, plainOps, h2]
  simpa [Function.comp_def] using this

theorem scanFrom_split (b : PlainB) (key : Nat) : ∀ (n m i : Nat), scanFrom b key i (n + m) = (do
    let p ← scanFrom b key i n
    if p = NPOS then scanFrom b key (i + n) m else return p) ∨ NPOS ≤ i + n := by
  intro n
  induction n with
  | zero => intro m i; left; simp [scanFrom]
  | succ n ih =>
    intro m i
    by_cases hov : NPOS ≤ i + (n + 1)
    · exact .inr hov
    left
    rw [show n + 1 + m = (n + m) + 1 by omega]
    simp only [scanFrom]
    cases cellRead b i with
    | error e => rfl
    | ok x =>
      simp only [ok_bind]
      by_cases hx : x = key
      · simp only [if_pos hx, pure_eq_ok, ok_bind]
        rw [if_neg (by omega)]
      · simp only [if_neg hx]
        rcases ih m (i + 1) with h | h
        · rw [h, show i + 1 + n = i + (n + 1) by omega]
        · omega

theorem ArrRep.find_in (h : ArrRep c o l) {k : Nat} (hk : k % 2 ^ c.ks ∈ l.map Prod.fst) :
    (arrOverflow c).find o k = .ok ((l.map Prod.fst).idxOf (k % 2 ^ c.ks)) := by
  obtain ⟨r, h2, h3⟩ := h.keys
  have := scanFrom_eq (k % 2 ^ c.ks) (l.map Prod.fst) [] r
  simp only [List.nil_append, List.length_nil, List.length_map, List.map_map, if_pos hk, Nat.zero_add] at this
  have hl : l.length ≤ arrLength := by omega
  have hidx : (l.map Prod.fst).idxOf (k % 2 ^ c.ks) < l.length := by
    have := List.idxOf_lt_length_of_mem hk
    simpa using this
  simp only [arrOverflow, plainOps, h2]
  rcases scanFrom_split (some (l.map (fun e => some e.1) ++ r)) (k % 2 ^ c.ks) l.length r.length 0 with h | h
  · rw [h3] at h
    rw [h]
    have e : (some ∘ Prod.fst : Nat × Nat → Option Nat) = fun e => some e.1 := rfl
    rw [e] at this
    rw [this, ok_bind, if_neg]
    · rfl
    · intro e'
      have : NPOS = 2 ^ 64 - 1 := rfl
      have : arrLength = 256 := rfl
      omega
  · have : NPOS = 2 ^ 64 - 1 := rfl
    have : arrLength = 256 := rfl
    omega

theorem ArrRep.find_out_full (h : ArrRep c o l) {k : Nat} (hfull : l.length = arrLength) (hk : k % 2 ^ c.ks ∉ l.map Prod.fst) :
    (arrOverflow c).find o k = .ok NPOS := by
  obtain ⟨r, h2, h3⟩ := h.keys
  have := scanFrom_eq (k % 2 ^ c.ks) (l.map Prod.fst) [] r
  simp only [List.nil_append, List.length_nil, List.length_map, List.map_map, if_neg hk] at this
  rw [hfull] at this
  simp only [arrOverflow, plainOps, h2]
  exact this

end SC
