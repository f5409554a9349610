import Verif.Debug
/-!
# The bucket interface

All bucket classes of `bucket.hpp` (and `null_value_bucket`) offer the same functions; the tables are
templates over them.  `BucketOps` is that interface.  Widths are passed by the table on each call.
-/
namespace SC

/-- The member functions a bucket template argument provides. -/
structure BucketOps (B : Type) where
  /-- default constructed bucket -/
  empty : B
  /-- `clear()` -/
  clear : B → B
  /-- `initialize(length, width)` (the old pointer is overwritten) -/
  init : (len w : Nat) → Res B
  /-- `resize(oldsize, size, width)` -/
  resize : B → (old new w : Nat) → Res B
  /-- `write(i, key, width)` -/
  write : B → (i x w : Nat) → Res B
  /-- `read(i, width)` -/
  read : B → (i w : Nat) → Res Nat
  /-- `find(key, length, width)`, `NPOS` if there is no such entry -/
  find : B → (key len w : Nat) → Res Nat
  /-- `erase(position, length, width)` -/
  erase : B → (pos len w : Nat) → Res B
  /-- `serialize(os, size, width)`: the bytes written -/
  serialize : B → (len w : Nat) → Res (List Nat)
  /-- `deserialize(is, size, width)`: new bucket and the unread rest of the stream -/
  deserialize : (len w : Nat) → List Nat → Res (B × List Nat)

/-- position of the first occurrence, `NPOS` if there is none -/
def posOf (xs : List Nat) (x : Nat) : Nat := if x ∈ xs then xs.idxOf x else NPOS

/-- The abstract meaning of a bucket: `Rep b w cap xs` says that `b` holds the entries `xs` (of width `w`)
and has room for `cap` entries.  `norm w x` is the value that is stored when `x` is written.
If `spare` is set, `erase` is only promised to work while there is an unused entry; `ok w x` restricts the values that
may be written. -/
structure LawfulCore {B : Type} (ops : BucketOps B) (norm : Nat → Nat → Nat)
    (Rep : B → Nat → Nat → List Nat → Prop) (spare : Bool := false)
    (ok : Nat → Nat → Prop := fun _ _ => True) : Prop where
  init : ∀ len w w', 1 ≤ w' → w' ≤ w → w ≤ 64 → ∃ b, ops.init len w = .ok b ∧ Rep b w' len []
  resize : ∀ b w cap xs new, 1 ≤ w → w ≤ 64 → Rep b w cap xs → xs.length ≤ new → 0 < new →
    ∃ b', ops.resize b xs.length new w = .ok b' ∧ Rep b' w new xs
  write_new : ∀ b w cap xs x, 1 ≤ w → w ≤ 64 → Rep b w cap xs → xs.length < cap → ok w x →
    ∃ b', ops.write b xs.length x w = .ok b' ∧ Rep b' w cap (xs ++ [norm w x])
  write_old : ∀ b w cap xs x i, 1 ≤ w → w ≤ 64 → Rep b w cap xs → i < xs.length → ok w x →
    ∃ b', ops.write b i x w = .ok b' ∧ Rep b' w cap (xs.set i (norm w x))
  read : ∀ b w cap xs i, 1 ≤ w → w ≤ 64 → Rep b w cap xs → (h : i < xs.length) → ops.read b i w = .ok xs[i]
  erase : ∀ b w cap xs p, 1 ≤ w → w ≤ 64 → Rep b w cap xs → p < xs.length →
    (spare = true → xs.length < cap) →
    ∃ b', ops.erase b p xs.length w = .ok b' ∧ Rep b' w cap (xs.eraseIdx p)
  cap_ge : ∀ b w cap xs, Rep b w cap xs → xs.length ≤ cap

/-- In addition a bucket that is written to a stream can be read back. -/
structure LawfulBucket {B : Type} (ops : BucketOps B) (norm : Nat → Nat → Nat)
    (Rep : B → Nat → Nat → List Nat → Prop) (spare : Bool := false)
    (ok : Nat → Nat → Prop := fun _ _ => True) : Prop extends LawfulCore ops norm Rep spare ok where
  serialize : ∀ b w cap xs rest, 1 ≤ w → w ≤ 64 → Rep b w cap xs → 0 < xs.length →
    ∃ bytes b', ops.serialize b xs.length w = .ok bytes ∧
      ops.deserialize xs.length w (bytes ++ rest) = .ok (b', rest) ∧ Rep b' w xs.length xs

/-- `find`, needed of buckets that store keys -/
structure LawfulFind {B : Type} (ops : BucketOps B) (norm : Nat → Nat → Nat)
    (Rep : B → Nat → Nat → List Nat → Prop) : Prop where
  find : ∀ b w cap xs x, 1 ≤ w → w ≤ 64 → Rep b w cap xs → norm w x = x →
    ops.find b x xs.length w = .ok (posOf xs x)
  find_empty : ∀ b w x, ops.find b x 0 w = .ok NPOS

end SC
