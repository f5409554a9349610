import Verif.Hash.Mapping
import Verif.Bucket.Ops
/-!
# Interfaces of the parts a hash table is made of

The three tables `separate_chaining_table`, `compact_chaining_map` and `group_chaining_table` contain the same
control flow over three different ways to store the buckets.  `StoreOps` is the collection of those pieces of code of
the three classes that touch the storage of buckets; `OverflowOps` is the interface of the `overflow_t` template
argument.  The control flow itself is in `Verif.Table.Tab`.
-/
namespace SC

/-- What the storage code sees of the table: logarithm of the number of buckets (`m_buckets`), `m_key_width`,
`m_hash.remainder_width(m_buckets)`, `m_value_width`, `m_buckets_per_group` (group table only). -/
structure Dim where
  tb : Nat
  kw : Nat
  qw : Nat
  vw : Nat
  bpg : Nat

/-- The storage of the buckets. -/
structure StoreOps (S : Type) where
  /-- allocate `2^tb` empty buckets -/
  alloc : Dim → Res S
  /-- `bucket_size(bucket)` -/
  size : S → Dim → (b : Nat) → Res Nat
  /-- `locate(bucket, quotient)`, `NPOS` if there is no such entry -/
  locate : S → Dim → (b q : Nat) → Res Nat
  /-- is the table to be enlarged before another entry is put into this bucket? -/
  full : S → Dim → (b : Nat) → Res Bool
  /-- append an entry to a bucket -/
  push : S → Dim → (b q v : Nat) → Res S
  /-- `quotient_at(bucket, position)` -/
  quotientAt : S → Dim → (b i : Nat) → Res Nat
  /-- `value_at(bucket, position)` -/
  valueAt : S → Dim → (b i : Nat) → Res Nat
  /-- `write_value(bucket, position, value)` -/
  writeValue : S → Dim → (b i v : Nat) → Res S
  /-- remove the entry at a position of a bucket -/
  eraseAt : S → Dim → (b i : Nat) → Res S
  /-- `shrink_to_fit(bucket)` -/
  shrink : S → Dim → (b : Nat) → Res S

/-- The interface of an overflow table (overflow.hpp). -/
structure OverflowOps (O : Type) where
  /-- constructor -/
  new : (kw vw : Nat) → O
  /-- `resize_buckets(bucketcount, key_width, value_width)` -/
  resizeBuckets : O → (n : Nat) → Res O
  /-- `need_consult(bucket)` -/
  needConsult : O → (b : Nat) → Res Bool
  size : O → Nat
  capacity : O → Nat
  firstPosition : O → Nat
  nextPosition : O → Nat → Nat
  previousPosition : O → Nat → Nat
  validPosition : O → Nat → Bool
  clear : O → O
  /-- `insert(bucket, key, value)`: new state and position, `NPOS` on failure -/
  insert : O → (b k v : Nat) → Res (O × Nat)
  /-- `find(key)`: position or `NPOS` -/
  find : O → (k : Nat) → Res Nat
  /-- `operator[](position)` as a value -/
  read : O → (p : Nat) → Res Nat
  /-- assignment to `operator[](position)` -/
  write : O → (p v : Nat) → Res O
  /-- `key(position)` -/
  key : O → (p : Nat) → Res Nat
  /-- `erase(position)` -/
  erase : O → (p : Nat) → Res O

/-! ## What is demanded of the parts -/

/-- sane parameters; quotients of at most `W` bits can be stored -/
structure GoodDim (W : Nat) (d : Dim) : Prop where
  qw_le_W : d.qw ≤ W
  tb_pos : 1 ≤ d.tb
  tb_lt : d.tb < 64
  qw_pos : 1 ≤ d.qw
  qw_le : d.qw ≤ d.kw
  kw_le : d.kw ≤ 64
  vw_pos : 1 ≤ d.vw
  vw_le : d.vw ≤ 64
  bpg_pos : 1 ≤ d.bpg
  bpg_le : d.bpg ≤ 64

/-- contents of the buckets: lists of (quotient, value) -/
abbrev Cont := Nat → List (Nat × Nat)

/-- `Rep s d c`: the storage `s` holds the buckets `c`.  A bucket (or the group it belongs to) is full if
`maxE` entries are stored in at most `cl` buckets; `norm` is what remains of a value when it is stored; quotients have
at most `W` bits; `ok w v` restricts the values that may be stored, `D` the dimensions. -/
structure LawfulStore {S : Type} (ops : StoreOps S) (norm : Nat → Nat → Nat)
    (Rep : S → Dim → Cont → Prop) (maxE cl W : Nat) (ok : Nat → Nat → Prop := fun _ _ => True)
    (D : Dim → Prop := fun _ => True) : Prop where
  alloc : ∀ d, ∃ s, ops.alloc d = .ok s ∧ (GoodDim W d → D d → Rep s d (fun _ => []))
  size : ∀ s d c b, GoodDim W d → Rep s d c → b < 2 ^ d.tb → ops.size s d b = .ok (c b).length
  locate : ∀ s d c b q, GoodDim W d → Rep s d c → b < 2 ^ d.tb → q < 2 ^ d.qw →
    ops.locate s d b q = .ok (posOf ((c b).map Prod.fst) q)
  full : ∀ s d c b, GoodDim W d → Rep s d c → b < 2 ^ d.tb →
    ∃ r, ops.full s d b = .ok r ∧ (r = true → ∃ bs : List Nat, bs.Nodup ∧ b ∈ bs ∧ bs.length ≤ cl ∧
      (∀ x ∈ bs, x < 2 ^ d.tb) ∧ maxE ≤ (bs.map (fun x => (c x).length)).sum)
  push : ∀ s d c b q v, GoodDim W d → Rep s d c → b < 2 ^ d.tb → q < 2 ^ d.qw → ops.full s d b = .ok false → ok d.vw v →
    ∃ s', ops.push s d b q v = .ok s' ∧ Rep s' d (upd c b (c b ++ [(q, norm d.vw v)]))
  quotientAt : ∀ s d c b i, GoodDim W d → Rep s d c → b < 2 ^ d.tb → (h : i < (c b).length) →
    ops.quotientAt s d b i = .ok (c b)[i].1
  valueAt : ∀ s d c b i, GoodDim W d → Rep s d c → b < 2 ^ d.tb → (h : i < (c b).length) →
    ops.valueAt s d b i = .ok (c b)[i].2
  writeValue : ∀ s d c b i v, GoodDim W d → Rep s d c → b < 2 ^ d.tb → (h : i < (c b).length) → ok d.vw v →
    ∃ s', ops.writeValue s d b i v = .ok s' ∧ Rep s' d (upd c b ((c b).set i ((c b)[i].1, norm d.vw v)))
  eraseAt : ∀ s d c b i, GoodDim W d → Rep s d c → b < 2 ^ d.tb → i < (c b).length →
    ∃ s', ops.eraseAt s d b i = .ok s' ∧ Rep s' d (upd c b ((c b).eraseIdx i))
  shrink : ∀ s d c b, GoodDim W d → Rep s d c → b < 2 ^ d.tb → ∃ s', ops.shrink s d b = .ok s' ∧ Rep s' d c
  len : ∀ s d c b, GoodDim W d → Rep s d c → b < 2 ^ d.tb → (c b).length < NPOS

theorem LawfulStore.weaken {S : Type} {ops : StoreOps S} {norm : Nat → Nat → Nat} {Rep : S → Dim → Cont → Prop}
    {maxE cl W : Nat} {ok : Nat → Nat → Prop} {D : Dim → Prop} (h : LawfulStore ops norm Rep maxE cl W) :
    LawfulStore ops norm Rep maxE cl W ok D where
  alloc d := (h.alloc d).imp fun _ h' => ⟨h'.1, fun g _ => h'.2 g trivial⟩
  size := h.size
  locate := h.locate
  full := h.full
  push s d c b q v hd hr hb hq hf _ := h.push s d c b q v hd hr hb hq hf trivial
  quotientAt := h.quotientAt
  valueAt := h.valueAt
  writeValue s d c b i v hd hr hb hi _ := h.writeValue s d c b i v hd hr hb hi trivial
  eraseAt := h.eraseAt
  shrink := h.shrink
  len := h.len

/-- Following `first_position`, `next_position` until `valid_position` fails visits exactly these
(position, key, value) triples. -/
def OvWalk {O : Type} (ov : OverflowOps O) (o : O) : Nat → List (Nat × Nat × Nat) → Prop
  | i, [] => ov.validPosition o i = false
  | i, e :: es => i = e.1 ∧ ov.validPosition o i = true ∧ OvWalk ov o (ov.nextPosition o i) es

/-- `Rep o n l full`: the overflow table `o` for `n` buckets holds the (position, key, value) triples `l`, and
`full` tells for which buckets it has to be consulted.  Erasing may change the positions of the other elements.  `ok v`
restricts the values that may be stored. -/
structure LawfulOverflow {O : Type} (ov : OverflowOps O) (norm : Nat → Nat)
    (Rep : O → Nat → List (Nat × Nat × Nat) → (Nat → Bool) → Prop) (ok : Nat → Prop := fun _ => True) : Prop where
  new : ∀ kw vw, ∃ full, Rep (ov.new kw vw) 0 [] full
  resize : ∀ o n m full, Rep o n [] full → m ≤ 2 ^ 63 → ∃ o' full', ov.resizeBuckets o m = .ok o' ∧ Rep o' m [] full'
  clear : ∀ o n l full, Rep o n l full → ∃ full', Rep (ov.clear o) 0 [] full'
  pos : ∀ o n l full e, Rep o n l full → e ∈ l → e.1 < NPOS
  pos_nodup : ∀ o n l full, Rep o n l full → (l.map (fun e => e.1)).Nodup
  size : ∀ o n l full, Rep o n l full → ov.size o = l.length
  consult : ∀ o n l full b, Rep o n l full → b < n → ov.needConsult o b = .ok (full b)
  walk : ∀ o n l full, Rep o n l full → OvWalk ov o (ov.firstPosition o) l
  find_in : ∀ o n l full e, Rep o n l full → e ∈ l → ov.find o e.2.1 = .ok e.1
  find_out : ∀ o n l full k, Rep o n l full → (∀ e ∈ l, e.2.1 ≠ k) → ov.find o k = .ok NPOS
  read : ∀ o n l full e, Rep o n l full → e ∈ l → ov.read o e.1 = .ok e.2.2
  key : ∀ o n l full e, Rep o n l full → e ∈ l → ov.key o e.1 = .ok e.2.1
  insert : ∀ o n l full b k v, Rep o n l full → b < n → ov.size o < ov.capacity o → (∀ e ∈ l, e.2.1 ≠ k) → ok v →
    (∃ o' full', ov.insert o b k v = .ok (o', NPOS) ∧ Rep o' n l full' ∧ ∀ x, full x = true → full' x = true) ∨
    (∃ o' full' p l', ov.insert o b k v = .ok (o', p) ∧ p ≠ NPOS ∧ l'.Perm ((p, k, norm v) :: l) ∧
      Rep o' n l' full' ∧ full' b = true ∧ ∀ x, full x = true → full' x = true)
  write : ∀ o n l full v l₁ l₂ p k x, Rep o n l full → l = l₁ ++ (p, k, x) :: l₂ → ok v →
    ∃ o', ov.write o p v = .ok o' ∧ Rep o' n (l₁ ++ (p, k, norm v) :: l₂) full
  erase : ∀ o n l full l₁ l₂ e, Rep o n l full → l = l₁ ++ e :: l₂ →
    ∃ o' l', ov.erase o e.1 = .ok o' ∧ l'.map Prod.snd = (l₁ ++ l₂).map Prod.snd ∧ Rep o' n l' full

theorem LawfulOverflow.weaken {O : Type} {ov : OverflowOps O} {norm : Nat → Nat}
    {Rep : O → Nat → List (Nat × Nat × Nat) → (Nat → Bool) → Prop} {ok : Nat → Prop} (h : LawfulOverflow ov norm Rep) :
    LawfulOverflow ov norm Rep ok :=
  { h with
    insert := fun o n l full b k v h1 h2 h3 h4 _ => h.insert o n l full b k v h1 h2 h3 h4 trivial
    write := fun o n l full v l₁ l₂ p k x h1 h2 _ => h.write o n l full v l₁ l₂ p k x h1 h2 trivial }

theorem map_eraseIdx {α β : Type} (f : α → β) (l : List α) (i : Nat) : (l.eraseIdx i).map f = (l.map f).eraseIdx i := by
  simp [List.eraseIdx_eq_take_drop_succ, List.map_take, List.map_drop]

end SC
