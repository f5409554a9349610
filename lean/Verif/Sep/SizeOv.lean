import Verif.Sep.Size
import Verif.Overflow.Map
import Verif.Overflow.Array
/-! # `size_in_bytes()` of `separate_chaining_table` with `map_overflow` and `array_overflow` -/
namespace SC
variable {KB VB : Type}

/-- `map_overflow::size_in_bytes()`, overflow.hpp:284-286.  `bitSize` is the value of `m_bucketfull.bit_size()`, a function of
`tdc::BitVector`, for a given length; `pair` is `sizeof(std::pair<key_type, value_type>)`. -/
def MapOv.sizeInBytes (bitSize : Nat → Nat) (pair : Nat) (o : MapOv) : Nat :=
  (bitSize o.nbits / 8 + pair * o.count) % W64

/-- `size_in_bytes()`, sep:774-788, with an overflow table: the sum of `SepCfg.sizeInBytes` and the bytes of the overflow table
(sep:786). -/
def SepCfg.sizeInBytesOv (p : SepCfg KB VB) (g : Cfg (SepStore KB VB) MapOv) (z : Sizeof) (bitSize : Nat → Nat) (pair : Nat)
    (t : Tab (SepStore KB VB) MapOv) : Res Nat := do
  let bytes ← p.sizeInBytes g z t
  return (bytes + t.ovf.sizeInBytes bitSize pair) % W64

/-- `array_overflow::size_in_bytes()`, overflow.hpp:108-110, with `plain_bucket::size_in_bytes` (bucket.hpp:109-112) in release builds; `c.ks / 8` is
`sizeof(key_type)` and `c.vs / 8` is `sizeof(value_type)`. -/
def ArrOv.sizeInBytes (c : ArrEnv) (bitSize : Nat → Nat) (o : ArrOv) : Nat :=
  (bitSize o.nbits / 8 + arrLength * (c.ks / 8) + arrLength * (c.vs / 8) + 1) % W64

/-- `size_in_bytes()`, sep:774-788, with `array_overflow` -/
def SepCfg.sizeInBytesArr (p : SepCfg KB VB) (g : Cfg (SepStore KB VB) ArrOv) (c : ArrEnv) (z : Sizeof) (bitSize : Nat → Nat)
    (t : Tab (SepStore KB VB) ArrOv) : Res Nat := do
  let bytes ← p.sizeInBytes g z t
  return (bytes + t.ovf.sizeInBytes c bitSize) % W64

/-- the map has at least as many buckets as elements -/
theorem MapRep.length_le {c : MapEnv} (hc : c.good) {o : MapOv} {n : Nat} {l : List (Nat × Nat × Nat)} {full : Nat → Bool}
    (h : MapRep c o n l full) : o.items.length ≤ o.count := by
  rw [← h.perm.length_eq, List.length_map]
  have h1 : ∀ (l : List (Nat × Nat × Nat)) (m k : Nat), l.Pairwise (fun a b => a.1 < b.1) → (∀ e ∈ l, k ≤ e.1 ∧ e.1 < m) → l.length ≤ m - k := by
    intro l
    induction l with
    | nil => intro m k _ _; simp
    | cons a l ih =>
      intro m k hs hb
      have hp := List.pairwise_cons.mp hs
      have h0 := hb a (by simp)
      have h2 := ih m (a.1 + 1) hp.2 (fun e he => ⟨hp.1 e he, (hb e (by simp [he])).2⟩)
      simp only [List.length_cons]
      omega
  have := h1 l o.count 0 h.sorted (fun e he => ⟨Nat.zero_le _, by rw [h.pos e he]; exact hc.bkt_lt _ _ h.count_pos⟩)
  omega

end SC
