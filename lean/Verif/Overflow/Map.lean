import Verif.Table.Ops
/-!
# `map_overflow`, overflow.hpp:168-289

`std::unordered_map` is an external class.  Of it the following is used, and everything else is left open by `MapEnv`:
the bucket of a key is a function of the key and of `bucket_count()`; `bucket_count()` changes only in `reserve` and in an
insertion that makes the map have more elements than buckets (`max_load_factor` is 1; the C++ standard forbids a rehash
otherwise); `clear` and `erase` keep it.  The order of the elements within a bucket is that of the list `items`; it is
irrelevant for the proofs because there is never more than one.
-/
namespace SC

/-- What the implementation of `std::unordered_map` and `tdc::BitVector` is free to choose. -/
structure MapEnv where
  /-- `bucket(key)` for a given `bucket_count()` -/
  bkt : (count key : Nat) → Nat
  /-- `bucket_count()` of a new map -/
  init : Nat
  /-- `bucket_count()` after `reserve(n)` or after an insertion that exceeds the load factor, from the old one -/
  grow : (count n : Nat) → Nat
  /-- bits of a resized bit vector, from the old bit and the new length -/
  fresh : (old : Bool) → (len i : Nat) → Bool
  /-- number of bits of `value_type` -/
  vbits : Nat

/-- the contract: buckets are numbered from 0 to `bucket_count()-1`, there is at least one and at most `2^64-2` of them -/
structure MapEnv.good (c : MapEnv) : Prop where
  bkt_lt : ∀ n k, 0 < n → c.bkt n k < n
  init_pos : 0 < c.init
  init_lt : c.init < NPOS
  grow_pos : ∀ n m, 0 < c.grow n m
  grow_lt : ∀ n m, c.grow n m < NPOS

/-- the members, overflow.hpp:176-177 -/
structure MapOv where
  /-- `m_map.bucket_count()` -/
  count : Nat
  /-- `m_map`: the (key, value) pairs, no key twice -/
  items : List (Nat × Nat)
  /-- `m_bucketfull` -/
  bits : Nat → Bool
  /-- `m_bucketfull.size()` -/
  nbits : Nat

/-- `m_map.begin(position)`: the first element of a bucket, `none` if it equals `m_map.end(position)`; for
`position < bucket_count()` -/
def MapOv.head (c : MapEnv) (o : MapOv) (p : Nat) : Option (Nat × Nat) := o.items.find? (fun e => c.bkt o.count e.1 == p)

/-- the value type's range -/
def MapEnv.val (c : MapEnv) (v : Nat) : Nat := v % 2 ^ c.vbits

/-- the loop `while(position < bucket_count() && bucket is empty) ++position`, overflow.hpp:193 and 198-200, started at
`p`; the first argument bounds the number of iterations -/
def MapOv.scan (c : MapEnv) (o : MapOv) : Nat → Nat → Nat
  | 0, p => p
  | f + 1, p => if p < o.count ∧ (o.head c p).isNone = true then o.scan c f (p + 1) else p

/-- `previous_position`, overflow.hpp:203-209.  For position 0 the decrement wraps around and `m_map.begin` is called with
`2^64-1`, which is undefined; the model returns `2^64-1`. -/
def MapOv.prev (c : MapEnv) (o : MapOv) : Nat → Nat
  | 0 => NPOS
  | p + 1 => if 0 < p ∧ (o.head c p).isNone = true then o.prev c p else p

/-- `*m_map.begin(position)`; it is undefined for a bucket that does not exist or is empty -/
def MapOv.entry (c : MapEnv) (o : MapOv) (p : Nat) : Res (Nat × Nat) :=
  if p < o.count then
    match o.head c p with
    | some e => .ok e
    | none => .error .undef
  else .error .oob

/-- `m_map[key] = value` -/
def MapOv.put (c : MapEnv) (o : MapOv) (k v : Nat) : MapOv :=
  if o.items.any (fun e => e.1 == k) then
    { o with items := o.items.map (fun e => if e.1 = k then (k, c.val v) else e) }
  else
    { o with items := (k, c.val v) :: o.items,
             count := if o.items.length + 1 ≤ o.count then o.count else c.grow o.count (o.items.length + 1) }

/-- `insert`, overflow.hpp:241-251 -/
def MapOv.insert (c : MapEnv) (o : MapOv) (b k v : Nat) : Res (MapOv × Nat) :=
  if b < o.nbits then
    let o := { o with bits := upd o.bits b true }
    if (o.head c (c.bkt o.count k)).isSome = true then .ok (o, NPOS)
    else
      let o := o.put c k v
      .ok (o, c.bkt o.count k)
  else .error .oob

/-- `map_overflow`.  `serialize` and `deserialize` are in `Overflow/MapSerial`, `size_in_bytes` is in `Sep/SizeOv`. -/
def mapOverflow (c : MapEnv) : OverflowOps MapOv where
  -- overflow.hpp:183-185
  new _ _ := { count := c.init, items := [], bits := fun _ => false, nbits := 0 }
  -- overflow.hpp:252-256
  resizeBuckets o n := .ok { o with count := c.grow o.count n, bits := fun i => c.fresh (o.bits i) n i, nbits := n }
  -- overflow.hpp:258-261
  needConsult o b := if b < o.nbits then .ok (o.bits b) else .error .oob
  -- overflow.hpp:180, 181
  size o := o.items.length
  capacity o := o.count
  -- overflow.hpp:191-202
  firstPosition o := o.scan c o.count 0
  nextPosition o p := o.scan c o.count (p + 1)
  previousPosition o p := o.prev c p
  -- overflow.hpp:187-189
  validPosition o p := decide (p < o.count) && (o.head c p).isSome
  -- overflow.hpp:233-235
  clear o := { o with items := [] }
  insert o b k v := o.insert c b k v
  -- overflow.hpp:262-268
  find o k := .ok (match o.head c (c.bkt o.count k) with
    | none => NPOS
    | some e => if e.1 ≠ k then NPOS else c.bkt o.count k)
  -- overflow.hpp:269-283
  read o p := do
    let e ← o.entry c p
    return e.2
  write o p v := do
    let e ← o.entry c p
    return { o with items := o.items.map (fun x => if x.1 = e.1 then (x.1, c.val v) else x) }
  key o p := do
    let e ← o.entry c p
    return e.1
  -- overflow.hpp:236-239
  erase o p := do
    let e ← o.entry c p
    return { o with items := o.items.filter (fun x => x.1 != e.1) }

/-- `l` lists the elements by position; there is at most one per bucket of the map. -/
structure MapRep (c : MapEnv) (o : MapOv) (n : Nat) (l : List (Nat × Nat × Nat)) (full : Nat → Bool) : Prop where
  bits : full = o.bits
  len : n ≤ o.nbits
  count_pos : 0 < o.count
  count_lt : o.count < NPOS
  perm : (l.map Prod.snd).Perm o.items
  pos : ∀ e ∈ l, e.1 = c.bkt o.count e.2.1
  sorted : l.Pairwise (fun a b => a.1 < b.1)

variable {c : MapEnv} {o : MapOv} {n : Nat} {l : List (Nat × Nat × Nat)} {full : Nat → Bool}

theorem MapRep.inj (h : MapRep c o n l full) {a b : Nat × Nat × Nat} (ha : a ∈ l) (hb : b ∈ l) (e : a.1 = b.1) : a = b := by
  obtain ⟨i, hi, rfl⟩ := List.mem_iff_getElem.mp ha
  obtain ⟨j, hj, rfl⟩ := List.mem_iff_getElem.mp hb
  have hs := List.pairwise_iff_getElem.mp h.sorted
  rcases Nat.lt_trichotomy i j with hlt | rfl | hlt
  · have := hs i j hi hj hlt; omega
  · rfl
  · have := hs j i hj hi hlt; omega

theorem MapRep.lt (h : MapRep c o n l full) (hc : c.good) {a : Nat × Nat × Nat} (ha : a ∈ l) : a.1 < o.count := by
  rw [h.pos a ha]; exact hc.bkt_lt _ _ h.count_pos

theorem MapRep.head_in (h : MapRep c o n l full) {a : Nat × Nat × Nat} (ha : a ∈ l) : o.head c a.1 = some a.2 := by
  unfold MapOv.head
  have hm : a.2 ∈ o.items := h.perm.mem_iff.mp (List.mem_map_of_mem ha)
  cases hf : o.items.find? (fun e => c.bkt o.count e.1 == a.1) with
  | none =>
    have := List.find?_eq_none.mp hf _ hm
    simp [h.pos a ha] at this
  | some x =>
    have hx := List.find?_some hf
    have hxm := List.mem_of_find?_eq_some hf
    obtain ⟨b, hb, rfl⟩ := List.mem_map.mp (h.perm.mem_iff.mpr hxm)
    have : b.1 = a.1 := by rw [h.pos b hb]; simpa using hx
    rw [h.inj hb ha this]

theorem MapRep.head_out (h : MapRep c o n l full) {p : Nat} (hp : ∀ a ∈ l, a.1 ≠ p) : o.head c p = none := by
  unfold MapOv.head
  rw [List.find?_eq_none]
  intro x hx
  obtain ⟨b, hb, rfl⟩ := List.mem_map.mp (h.perm.mem_iff.mpr hx)
  have := hp b hb
  rw [h.pos b hb] at this
  simpa using this

theorem MapRep.entry (h : MapRep c o n l full) (hc : c.good) {a : Nat × Nat × Nat} (ha : a ∈ l) : o.entry c a.1 = .ok a.2 := by
  simp only [MapOv.entry, if_pos (h.lt hc ha), h.head_in ha]

theorem scan_spec (c : MapEnv) (o : MapOv) : ∀ (f p : Nat), o.count ≤ p + f →
    p ≤ o.scan c f p ∧ (∀ i, p ≤ i → i < o.scan c f p → o.head c i = none) ∧
    (o.scan c f p < o.count → (o.head c (o.scan c f p)).isSome = true) := by
  intro f
  induction f with
  | zero => intro p hp; simp only [MapOv.scan]; exact ⟨Nat.le_refl _, by omega, by omega⟩
  | succ f ih =>
    intro p hp
    simp only [MapOv.scan]
    by_cases h : p < o.count ∧ (o.head c p).isNone = true
    · rw [if_pos h]
      obtain ⟨h1, h2, h3⟩ := ih (p + 1) (by omega)
      refine ⟨by omega, ?_, h3⟩
      intro i hi hi2
      by_cases he : i = p
      · subst he; simpa using h.2
      · exact h2 i (by omega) hi2
    · rw [if_neg h]
      refine ⟨Nat.le_refl _, by omega, ?_⟩
      intro hlt
      cases hh : o.head c p with
      | none => simp [hh, hlt] at h
      | some x => rfl

theorem MapRep.walk (h : MapRep c o n l full) (hc : c.good) : ∀ (l₂ l₁ : List (Nat × Nat × Nat)) (i : Nat), l = l₁ ++ l₂ →
    (∀ a ∈ l₁, a.1 < i) → (∀ a ∈ l₂, i ≤ a.1) → OvWalk (mapOverflow c) o (o.scan c o.count i) l₂ := by
  intro l₂
  induction l₂ with
  | nil =>
    intro l₁ i hl h1 _
    obtain ⟨s1, s2, s3⟩ := scan_spec c o o.count i (by omega)
    simp only [List.append_nil] at hl
    subst hl
    simp only [OvWalk, mapOverflow]
    by_cases hlt : o.scan c o.count i < o.count
    · have := s3 hlt
      rw [h.head_out (fun a ha => by have := h1 a ha; omega)] at this
      cases this
    · simp [hlt]
  | cons e es ih =>
    intro l₁ i hl h1 h2
    obtain ⟨s1, s2, s3⟩ := scan_spec c o o.count i (by omega)
    have hem : e ∈ l := by rw [hl]; simp
    have hsort := h.sorted
    rw [hl, List.pairwise_append] at hsort
    obtain ⟨p1, p2, p3⟩ := hsort
    rw [List.pairwise_cons] at p2
    have hie := h2 e (by simp)
    have helt := h.lt hc hem
    have heq : o.scan c o.count i = e.1 := by
      rcases Nat.lt_trichotomy (o.scan c o.count i) e.1 with hlt | heq | hgt
      · exfalso
        have := s3 (by omega)
        rw [h.head_out] at this
        · cases this
        · intro a ha
          rw [hl, List.mem_append, List.mem_cons] at ha
          rcases ha with ha | rfl | ha
          · have := h1 a ha; omega
          · omega
          · have := p2.1 a ha; omega
      · exact heq
      · have := s2 e.1 hie hgt
        rw [h.head_in hem] at this
        cases this
    refine ⟨heq, ?_, ?_⟩
    · simp only [mapOverflow, heq, h.head_in hem, helt, decide_true, Option.isSome, Bool.and_self]
    · show OvWalk (mapOverflow c) o (o.scan c o.count (o.scan c o.count i + 1)) es
      rw [heq]
      refine ih (l₁ ++ [e]) (e.1 + 1) (by rw [hl]; simp) ?_ ?_
      · intro a ha
        rw [List.mem_append] at ha
        rcases ha with ha | ha
        · have := p3 a ha e (by simp); omega
        · simp at ha; subst ha; omega
      · intro a ha
        have := p2.1 a ha; omega

/-- splitting at an element: the keys of the others are different -/
theorem MapRep.split (h : MapRep c o n l full) {l₁ l₂ : List (Nat × Nat × Nat)} {e : Nat × Nat × Nat} (hl : l = l₁ ++ e :: l₂) :
    (∀ a ∈ l₁, a.2.1 ≠ e.2.1) ∧ (∀ a ∈ l₂, a.2.1 ≠ e.2.1) := by
  have hsort := h.sorted
  rw [hl, List.pairwise_append] at hsort
  obtain ⟨p1, p2, p3⟩ := hsort
  rw [List.pairwise_cons] at p2
  have hk : ∀ a ∈ l, a.2.1 = e.2.1 → a.1 = e.1 := by
    intro a ha hae
    rw [h.pos a ha, h.pos e (by rw [hl]; simp), hae]
  constructor
  · intro a ha hae
    have := p3 a ha e (by simp)
    have := hk a (by rw [hl]; simp [ha]) hae
    omega
  · intro a ha hae
    have := p2.1 a ha
    have := hk a (by rw [hl]; simp [ha]) hae
    omega

theorem lawful_map (c : MapEnv) (hc : c.good) : LawfulOverflow (mapOverflow c) c.val (MapRep c) where
  new := fun kw vw => ⟨_, rfl, Nat.le_refl _, hc.init_pos, hc.init_lt, List.Perm.refl _, by simp, List.Pairwise.nil⟩
  resize := by
    intro o n m full h _
    refine ⟨_, _, rfl, ⟨rfl, Nat.le_refl _, hc.grow_pos _ _, hc.grow_lt _ _, h.perm, by simp, List.Pairwise.nil⟩⟩
  clear := by
    intro o n l full h
    exact ⟨_, rfl, Nat.zero_le _, h.count_pos, h.count_lt, List.Perm.refl _, by simp, List.Pairwise.nil⟩
  pos := by
    intro o n l full e h he
    have := h.lt hc he
    have := h.count_lt
    omega
  pos_nodup := by
    intro o n l full h
    rw [List.Nodup, List.pairwise_map]
    exact h.sorted.imp (fun h => by omega)
  size := by
    intro o n l full h
    have := h.perm.length_eq
    simpa [mapOverflow] using this.symm
  consult := by
    intro o n l full b h hb
    simp only [mapOverflow, if_pos (Nat.lt_of_lt_of_le hb h.len), h.bits]
  walk := by
    intro o n l full h
    exact h.walk hc l [] 0 rfl (by simp) (by simp)
  find_in := by
    intro o n l full e h he
    have hh := h.head_in he
    rw [h.pos e he] at hh ⊢
    simp only [mapOverflow, hh, ne_eq, not_true_eq_false, if_false]
  find_out := by
    intro o n l full k h hk
    simp only [mapOverflow]
    cases hh : o.head c (c.bkt o.count k) with
    | none => rfl
    | some x =>
      obtain ⟨b, hb, rfl⟩ := List.mem_map.mp (h.perm.mem_iff.mpr (List.mem_of_find?_eq_some hh))
      simp only [ne_eq, hk b hb, not_false_eq_true, if_true]
  read := by
    intro o n l full e h he
    simp only [mapOverflow, h.entry hc he, ok_bind]; rfl
  key := by
    intro o n l full e h he
    simp only [mapOverflow, h.entry hc he, ok_bind]; rfl
  insert := by
    intro o n l full b k v h hb hcap hk _
    have hlen : o.items.length = l.length := by have := h.perm.length_eq; simpa using this.symm
    have hbn : b < o.nbits := Nat.lt_of_lt_of_le hb h.len
    have hmono : ∀ x, full x = true → upd o.bits b true x = true := by
      intro x hx
      by_cases hxb : x = b
      · subst hxb; exact upd_same _ _ _
      · rw [upd_other _ _ hxb, ← h.bits]; exact hx
    have hhead : ({ o with bits := upd o.bits b true } : MapOv).head c = o.head c := rfl
    by_cases hs : (o.head c (c.bkt o.count k)).isSome = true
    · refine .inl ⟨{ o with bits := upd o.bits b true }, upd o.bits b true, ?_, ⟨rfl, h.len, h.count_pos, h.count_lt, h.perm, h.pos, h.sorted⟩, hmono⟩
      simp only [mapOverflow, MapOv.insert, if_pos hbn, hhead, if_pos hs]
    · have hnone : ∀ a ∈ l, a.1 ≠ c.bkt o.count k := by
        intro a ha hae
        rw [← hae, h.head_in ha] at hs
        exact hs rfl
      have hany : o.items.any (fun e => e.1 == k) = false := by
        rw [List.any_eq_false]
        intro x hx
        obtain ⟨a, ha, rfl⟩ := List.mem_map.mp (h.perm.mem_iff.mpr hx)
        simpa using hk a ha
      have hcnt : o.items.length + 1 ≤ o.count := hcap
      have hput : ({ o with bits := upd o.bits b true } : MapOv).put c k v =
          { o with bits := upd o.bits b true, items := (k, c.val v) :: o.items } := by
        unfold MapOv.put
        simp only [hany, Bool.false_eq_true, if_false, if_pos hcnt]
      have hperm : (l.filter (fun e => decide (e.1 < c.bkt o.count k)) ++
          (c.bkt o.count k, k, c.val v) :: l.filter (fun e => !decide (e.1 < c.bkt o.count k))).Perm
          ((c.bkt o.count k, k, c.val v) :: l) :=
        List.perm_middle.trans (List.Perm.cons _ (List.filter_append_perm _ _))
      have hp := hc.bkt_lt o.count k h.count_pos
      refine .inr ⟨{ o with bits := upd o.bits b true, items := (k, c.val v) :: o.items }, upd o.bits b true, c.bkt o.count k, _,
        ?_, ?_, hperm, ?_, upd_same _ _ _, hmono⟩
      · simp only [mapOverflow, MapOv.insert, if_pos hbn, hhead, if_neg hs, hput]
      · have := h.count_lt; omega
      · refine ⟨rfl, h.len, h.count_pos, h.count_lt, ?_, ?_, ?_⟩
        · exact (hperm.map Prod.snd).trans (by simpa using h.perm)
        · intro e he
          rw [hperm.mem_iff, List.mem_cons] at he
          rcases he with rfl | he
          · rfl
          · exact h.pos e he
        · rw [List.pairwise_append, List.pairwise_cons]
          refine ⟨h.sorted.filter _, ⟨?_, h.sorted.filter _⟩, ?_⟩
          · intro a ha
            rw [List.mem_filter] at ha
            have h1 := hnone a ha.1
            have h2 := ha.2
            simp at h2
            show c.bkt o.count k < a.1
            omega
          · intro a ha b hb
            rw [List.mem_filter] at ha
            have ha2 := ha.2
            simp at ha2
            rw [List.mem_cons, List.mem_filter] at hb
            rcases hb with rfl | ⟨hb1, hb2⟩
            · exact ha2
            · simp at hb2
              omega
  write := by
    intro o n l full v l₁ l₂ p k x h hl _
    obtain ⟨s1, s2⟩ := h.split hl
    have he := h.entry hc (a := (p, k, x)) (by rw [hl]; simp)
    simp only at he s1 s2
    have m1 : ∀ l' : List (Nat × Nat × Nat), (∀ a ∈ l', a.2.1 ≠ k) →
        (l'.map Prod.snd).map (fun y : Nat × Nat => if y.1 = k then (y.1, c.val v) else y) = l'.map Prod.snd := by
      intro l' hl'
      rw [List.map_map]
      refine List.map_congr_left fun a ha => ?_
      simp [hl' a ha]
    refine ⟨{ o with items := o.items.map (fun y : Nat × Nat => if y.1 = k then (y.1, c.val v) else y) }, ?_,
      h.bits, h.len, h.count_pos, h.count_lt, ?_, ?_, ?_⟩
    · simp only [mapOverflow, he, ok_bind]; rfl
    · have hp := h.perm.map (fun y : Nat × Nat => if y.1 = k then (y.1, c.val v) else y)
      rw [hl, List.map_append, List.map_append, m1 _ s1, List.map_cons, List.map_cons, m1 _ s2] at hp
      simpa using hp
    · intro e hee
      rw [List.mem_append, List.mem_cons] at hee
      have : ∀ a ∈ l, a.1 = c.bkt o.count a.2.1 := h.pos
      rcases hee with h' | rfl | h'
      · exact h.pos e (by rw [hl]; simp [h'])
      · exact h.pos (p, k, x) (by rw [hl]; simp)
      · exact h.pos e (by rw [hl]; simp [h'])
    · have hsort := h.sorted
      rw [hl, List.pairwise_append, List.pairwise_cons] at hsort
      rw [List.pairwise_append, List.pairwise_cons]
      obtain ⟨p1, ⟨p2, p3⟩, p4⟩ := hsort
      refine ⟨p1, ⟨p2, p3⟩, ?_⟩
      intro a ha b hb
      rw [List.mem_cons] at hb
      rcases hb with rfl | hb
      · exact p4 a ha (p, k, x) (by simp)
      · exact p4 a ha b (by simp [hb])
  erase := by
    intro o n l full l₁ l₂ e h hl
    obtain ⟨s1, s2⟩ := h.split hl
    have he := h.entry hc (a := e) (by rw [hl]; simp)
    have m1 : ∀ l' : List (Nat × Nat × Nat), (∀ a ∈ l', a.2.1 ≠ e.2.1) →
        (l'.map Prod.snd).filter (fun y : Nat × Nat => y.1 != e.2.1) = l'.map Prod.snd := by
      intro l' hl'
      rw [List.filter_eq_self]
      intro a ha
      obtain ⟨b, hb, rfl⟩ := List.mem_map.mp ha
      simpa using hl' b hb
    refine ⟨{ o with items := o.items.filter (fun y : Nat × Nat => y.1 != e.2.1) }, l₁ ++ l₂, ?_, rfl,
      h.bits, h.len, h.count_pos, h.count_lt, ?_, ?_, ?_⟩
    · simp only [mapOverflow, he, ok_bind]; rfl
    · have hp := h.perm.filter (fun y : Nat × Nat => y.1 != e.2.1)
      rw [hl, List.map_append, List.filter_append, m1 _ s1, List.map_cons, List.filter_cons_of_neg (by simp), m1 _ s2] at hp
      simpa using hp
    · intro a ha
      rw [List.mem_append] at ha
      exact h.pos a (by rw [hl]; rcases ha with ha | ha <;> simp [ha])
    · have hsort := h.sorted
      rw [hl, List.pairwise_append, List.pairwise_cons] at hsort
      rw [List.pairwise_append]
      obtain ⟨p1, ⟨p2, p3⟩, p4⟩ := hsort
      exact ⟨p1, p3, fun a ha b hb => p4 a ha b (by simp [hb])⟩

end SC
