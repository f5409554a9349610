import Verif.Bits.Mem
import Verif.Bucket.Plain
/-!
# `varwidth_bucket<internal_t>`, bucket.hpp:366-506

`sb` is `storage_bitwidth`, the bit size of `internal_t` (8, 16, 32 or 64).  A bucket is a pointer to one
allocation, `none` is the null pointer.  `junk` gives the contents of fresh memory.
-/
namespace SC

abbrev VarB := Option Buf

/-- Template argument and environment of a variable-width bucket. -/
structure VarCfg where
  /-- bits of `internal_t` -/
  sb : Nat
  /-- are accesses to words that are not completely inside the allocation faults? -/
  strict : Bool
  /-- contents of fresh memory -/
  junk : Bits

/-- dereferencing the data pointer -/
def deref (b : VarB) : Res Buf := match b with
  | some m => .ok m
  | none => .error .null

/-- size in bits of an allocation for `n` entries: `sizeof(internal_type)*ceil_div(n*width, storage_bitwidth)` bytes -/
def varBits (sb n w : Nat) : Nat := sb * ceilDiv (n * w) sb

/-- `initialize`, bucket.hpp:414-419 -/
def varInit (c : VarCfg) (len w : Nat) : Res VarB := .ok (some (mallocBits c.junk (varBits c.sb len w)))

/-- `resize`, bucket.hpp:421-427; `realloc` of a null pointer is `malloc` -/
def varResize (c : VarCfg) (b : VarB) (old new w : Nat) : Res VarB :=
  if ceilDiv (old * w) c.sb < ceilDiv (new * w) c.sb then
    match b with
    | some m => .ok (some (reallocBits c.junk m (varBits c.sb new w)))
    | none => .ok (some (mallocBits c.junk (varBits c.sb new w)))
  else .ok b

/-- `write`, bucket.hpp:453-460 -/
def varWrite (c : VarCfg) (b : VarB) (i x w : Nat) : Res VarB := do
  let m ← deref b
  let m ← writeInt c.strict m ((i * w) / c.sb * c.sb) x ((i * w) % c.sb) w
  return some m

/-- `read`, bucket.hpp:462-466 -/
def varRead (c : VarCfg) (b : VarB) (i w : Nat) : Res Nat := do
  let m ← deref b
  readInt c.strict m ((i * w) / c.sb * c.sb) ((i * w) % c.sb) w

/-- first index `j` in `i, ..., i+n-1` whose entry equals `key` -/
def firstEntry (m : Bits) (w key i : Nat) : Nat → Option Nat
  | 0 => none
  | n + 1 => if readBits m (i * w) w = key then some i else firstEntry m w key (i + 1) n

/-- `broadwordsearch::broadsearch(data, length, width, key)` (external contract): index of the first of the
`length` packed entries that equals `key`, or -1.  It reads whole 64-bit words up to the last entry. -/
def broadsearch (strict : Bool) (m : Buf) (len w key : Nat) : Res Nat := do
  guardB strict m (64 * ceilDiv (len * w) 64)
  return (firstEntry m.bits w key 0 len).getD NPOS

/-- the linear scan in `find`, bucket.hpp:479-485; `n` iterations left -/
def varScan (c : VarCfg) (m : Buf) (key w i : Nat) (cur : Cursor) : Nat → Res Nat
  | 0 => .ok NPOS
  | n + 1 => do
    let (v, cur) ← readIntAndMove c.strict m cur w
    if v = key then return i
    varScan c m key w (i + 1) cur n

/-- `find`, bucket.hpp:468-487; `BROADWORD_SEARCH_THRESHOLD = 0` (bucket.hpp:12) -/
def varFind (c : VarCfg) (b : VarB) (key len w : Nat) : Res Nat :=
  if len > 0 ∧ w < 64 then do
    let m ← deref b
    broadsearch c.strict m len w key
  else if len = 0 then .ok NPOS -- the loop body is not executed, the pointer is not dereferenced
  else do
    let m ← deref b
    varScan c m key w 0 ⟨0, 0⟩ len

/-- the chunk loop used by `erase`, bucket.hpp:440-443 (and by `core_group::erase`, group_chaining.hpp):
`n` times read 64 bits, write 64 bits, both cursors advance -/
def moveChunks (strict : Bool) (m : Buf) (rd wr : Cursor) : Nat → Res (Buf × Cursor × Cursor)
  | 0 => .ok (m, rd, wr)
  | n + 1 => do
    let (v, rd) ← readIntAndMove strict m rd 64
    let (m, wr) ← writeIntAndMove strict m v wr 64
    moveChunks strict m rd wr n

/-- chunk loop followed by the final smaller chunk, bucket.hpp:440-450 -/
def moveBits (strict : Bool) (m : Buf) (rd wr : Cursor) (nbits : Nat) : Res Buf := do
  let (m, rd, wr) ← moveChunks strict m rd wr (nbits / 64)
  if nbits - nbits / 64 * 64 > 0 then
    let (v, _) ← readIntAndMove strict m rd (nbits - nbits / 64 * 64)
    let (m, _) ← writeIntAndMove strict m v wr (nbits - nbits / 64 * 64)
    return m
  else return m

/-- `erase`, bucket.hpp:430-451 -/
def varErase (c : VarCfg) (b : VarB) (pos len w : Nat) : Res VarB := do
  let m ← deref b
  let m ← moveBits c.strict m
    ⟨((pos + 1) * w) / c.sb * c.sb, ((pos + 1) * w) % c.sb⟩ ⟨(pos * w) / c.sb * c.sb, (pos * w) % c.sb⟩
    ((len - pos) * w)
  return some m

/-- the bytes of a memory area: `n` bytes from byte `i` on -/
def memBytes (m : Bits) (n : Nat) : List Nat := (List.range n).map (fun j => readBits m (8 * j) 8)

/-- contents of a memory area filled from bytes -/
def bytesMem (junk : Bits) (bs : List Nat) : Bits := fun i =>
  match bs[i / 8]? with
  | some x => x.testBit (i % 8)
  | none => junk i

/-- `serialize`, bucket.hpp:388-396 -/
def varSerialize (c : VarCfg) (b : VarB) (len w : Nat) : Res (List Nat) := do
  let m ← deref b
  guardB true m (varBits c.sb len w)
  return memBytes m.bits (varBits c.sb len w / 8)

/-- `deserialize`, bucket.hpp:379-387 -/
def varDeserialize (c : VarCfg) (len w : Nat) (s : List Nat) : Res (VarB × List Nat) := do
  let (bs, s) ← takeBytes (varBits c.sb len w / 8) s
  return (some ⟨varBits c.sb len w, bytesMem c.junk bs⟩, s)

/-- `varwidth_bucket<internal_t>` -/
def varOps (c : VarCfg) : BucketOps VarB where
  empty := none
  clear := fun _ => none
  init := varInit c
  resize := varResize c
  write := varWrite c
  read := varRead c
  find := varFind c
  erase := varErase c
  serialize := varSerialize c
  deserialize := varDeserialize c

end SC
