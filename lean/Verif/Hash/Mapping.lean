import Verif.Hash.Bijective
/-!
# `hash.hpp`: SplitMix and the two hash mappings
-/
namespace SC

/-- `SplitMix::operator()`, hash.hpp:9-14 -/
def splitMix (x : Nat) : Nat :=
  let x := ((x ^^^ (x >>> 30)) * 0xbf58476d1ce4e5b9) % W64
  let x := ((x ^^^ (x >>> 27)) * 0x94d049bb133111eb) % W64
  x ^^^ (x >>> 31)

/-- The interface of a `hash_mapping_t` template argument, constructed for a key width. -/
structure HashMapping where
  /-- `remainder_width(table_buckets)` -/
  remainderWidth : Nat → Nat
  /-- `map(key, table_buckets)`, returning (quotient, bucket) -/
  map : Nat → Nat → Res (Nat × Nat)
  /-- `inv_map(remainder, hash_value, table_buckets)` -/
  invMap : Nat → Nat → Nat → Res Nat

/-- `hash_mapping_adapter<key_t, hash_function>` constructed with `key_width`, hash.hpp:17-42.
`f` is the hash function object (`uint64_t` result).  Line 37 shifts by `64-table_buckets`, which is
undefined for `table_buckets = 0`. The narrowing of `m_width` to `uint8_t` has no effect for widths
up to 64. -/
def hashMappingAdapter (f : Nat → Nat) (keyWidth : Nat) : HashMapping where
  remainderWidth := fun _ => keyWidth
  map := fun key tb => do
    let m ← (if 64 < tb then .error .shift else shr64 (W64 - 1) (64 - tb) : Res Nat)
    return (key, f key &&& m)
  invMap := fun r _ _ => .ok r

/-- `bijective_hash_adapter<key_t, storage_t, bijective_function>` constructed with `width`,
hash.hpp:44-73.  `sbits` is the number of bits of `storage_t`: the returned
`std::pair<storage_type,size_t>` truncates the quotient (hash.hpp:66-68).  `remainder_width` is an
unsigned 8-bit subtraction (hash.hpp:56-59). `1ULL << table_buckets` and `>>` are undefined for
`table_buckets >= 64`.  The narrowing of the result of `inv_map` to `key_t` is not modelled (keys
have at most `8*sizeof(key_t)` bits). -/
def bijectiveHashAdapter (f : BijHash) (sbits : Nat) (width : Nat) : HashMapping where
  remainderWidth := fun tb => (width + 256 - tb) % 256
  map := fun key tb => do
    let h ← f.hash width key
    let q ← shr64 h tb
    let one ← shl64 1 tb
    return (q % 2 ^ sbits, h &&& ((one + W64 - 1) % W64))
  invMap := fun r h tb => do
    let r ← shl64 r tb
    f.hashInv width ((r + h) % W64)

end SC
