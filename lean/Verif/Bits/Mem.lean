import Verif.Prim
/-!
# Bit memory and the contract of `tdc_sdsl::bits_impl`

The bit-twiddling library (git submodule `external/bit_span`, not part of the repository) is modelled by
its documented meaning: `read_int(word, offset, len)` returns the `len` bits that start `offset` bits
behind the 64-bit word at address `word`; `write_int` replaces exactly these bits by the low `len` bits
of its argument, reading and writing back the full 64-bit words that contain them; the `_and_move`
variants advance the cursor by `len` bits.  The second word is accessed only if `offset+len > 64`.

A buffer is one heap allocation.  `alloc` is its size in bits, `bits` gives the contents.  `bits` is total:
its values at `i >= alloc` stand for whatever memory lies behind the allocation.
In *strict* mode every access to a 64-bit word that is not completely inside the allocation is the
fault `oob`; in *flat* mode such an access goes through (reads see the foreign bits, writes preserve
all bits outside of the addressed range, because that is what the read-modify-write does).
-/
namespace SC

abbrev Bits := Nat → Bool

/-- the `len` bits at bit address `pos`, least significant first -/
def readBits (m : Bits) (pos : Nat) : Nat → Nat
  | 0 => 0
  | len + 1 => (m pos).toNat + 2 * readBits m (pos + 1) len

/-- replace the `len` bits at bit address `pos` by the low bits of `x` -/
def writeBits (m : Bits) (pos len x : Nat) : Bits :=
  fun i => if pos ≤ i ∧ i < pos + len then x.testBit (i - pos) else m i

/-- A heap allocation used as bit array. -/
structure Buf where
  /-- size in bits -/
  alloc : Nat
  bits : Bits

/-- Access check for the memory below bit address `hi`. -/
def guardB (strict : Bool) (b : Buf) (hi : Nat) : Res Unit :=
  if strict && decide (b.alloc < hi) then .error .oob else .ok ()

/-- `bits_impl<>::read_int(word, offset, len)` (external contract); `base` is the bit address of `word`. -/
def readInt (strict : Bool) (b : Buf) (base off len : Nat) : Res Nat := do
  guardB strict b (base + 64)
  if off + len > 64 then guardB strict b (base + 128)
  return readBits b.bits (base + off) len

/-- `bits_impl<>::write_int(word, x, offset, len)` (external contract). -/
def writeInt (strict : Bool) (b : Buf) (base x off len : Nat) : Res Buf := do
  guardB strict b (base + 64)
  if off + len > 64 then guardB strict b (base + 128)
  return { b with bits := writeBits b.bits (base + off) len x }

/-- a word pointer together with a bit offset, as used by the `_and_move` functions -/
structure Cursor where
  base : Nat
  off : Nat

/-- how the `_and_move` functions advance `(word, offset)` by `len` bits -/
def Cursor.advance (c : Cursor) (len : Nat) : Cursor :=
  if c.off + len ≥ 64 then ⟨c.base + 64, c.off + len - 64⟩ else ⟨c.base, c.off + len⟩

/-- `bits_impl<>::read_int_and_move(word, offset, len)` (external contract) -/
def readIntAndMove (strict : Bool) (b : Buf) (c : Cursor) (len : Nat) : Res (Nat × Cursor) := do
  let v ← readInt strict b c.base c.off len
  return (v, c.advance len)

/-- `bits_impl<>::write_int_and_move(word, x, offset, len)` (external contract) -/
def writeIntAndMove (strict : Bool) (b : Buf) (x : Nat) (c : Cursor) (len : Nat) : Res (Buf × Cursor) := do
  let b ← writeInt strict b c.base x c.off len
  return (b, c.advance len)

/-- `malloc` of `n` bits; the contents come from the oracle `junk`. -/
def mallocBits (junk : Bits) (n : Nat) : Buf := ⟨n, junk⟩

/-- `realloc` to `n` bits: keeps the common prefix, the rest comes from the oracle. -/
def reallocBits (junk : Bits) (b : Buf) (n : Nat) : Buf :=
  ⟨n, fun i => if i < b.alloc ∧ i < n then b.bits i else junk i⟩

end SC
