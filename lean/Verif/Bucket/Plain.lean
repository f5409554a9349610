import Verif.Bucket.Ops
/-!
# `plain_bucket`, `class_bucket`, `avx2_bucket` and `null_value_bucket`

The memory of these buckets is a list of cells; a cell that was never written is `none`.
A bucket is `none` if `m_data == nullptr`.  `sbits` is the number of bits of `storage_type`.
-/
namespace SC

abbrev Cells := List (Option Nat)
abbrev PlainB := Option Cells

/-- `m_data[i]` as rvalue -/
def cellRead (b : PlainB) (i : Nat) : Res Nat :=
  match b with
  | none => .error .null
  | some cs => match cs[i]? with
    | none => .error .oob
    | some none => .error .uninit
    | some (some x) => .ok x

/-- `m_data[i] = x` -/
def cellWrite (b : PlainB) (i x : Nat) : Res PlainB :=
  match b with
  | none => .error .null
  | some cs => if i < cs.length then .ok (some (cs.set i (some x))) else .error .oob

/-- `plain_bucket::initialize`, bucket.hpp:240-244 (`malloc`); `class_bucket::initialize`, 325-329 (`new[]`,
cells of class types would be default constructed; the model treats them as unwritten);
`avx2_bucket::initialize`, 89-96. -/
def plainInitialize (len : Nat) : Res PlainB := .ok (some (List.replicate len none))

/-- `plain_bucket::resize`, bucket.hpp:253-256: `realloc` (of a null pointer: `malloc`). -/
def plainResize (b : PlainB) (new : Nat) : Res PlainB :=
  match b with
  | none => .ok (some (List.replicate new none))
  | some cs => .ok (some (cs.take new ++ List.replicate (new - cs.length) none))

/-- `plain_bucket::erase`, bucket.hpp:267-273; `avx2_bucket::erase`, 131-137:
`for(i = position+1; i < length; ++i) m_data[i-1] = m_data[i];`  `n` is the number of iterations left. -/
def plainEraseLoop (b : PlainB) (i : Nat) : Nat → Res PlainB
  | 0 => .ok b
  | n + 1 => do
    let x ← cellRead b i
    let b ← cellWrite b (i - 1) x
    plainEraseLoop b (i + 1) n

def plainErase (b : PlainB) (pos len : Nat) : Res PlainB := plainEraseLoop b (pos + 1) (len - (pos + 1))

/-- `plain_bucket::find`, bucket.hpp:278-283, also the tail loop of `avx2_bucket::find`, 156-159;
`n` is the number of iterations left. -/
def scanFrom (b : PlainB) (key : Nat) (i : Nat) : Nat → Res Nat
  | 0 => .ok NPOS
  | n + 1 => do
    let x ← cellRead b i
    if x = key then return i else scanFrom b key (i + 1) n

/-- little-endian bytes of an `n`-byte integer -/
def toBytes : (n x : Nat) → List Nat
  | 0, _ => []
  | n + 1, x => x % 256 :: toBytes n (x / 256)

/-- integer of little-endian bytes -/
def ofBytes : List Nat → Nat
  | [] => 0
  | b :: bs => b + 256 * ofBytes bs

/-- `is.read(buf, n)`: the first `n` bytes and the rest.  Reading past the end of the stream leaves the
buffer (partially) unwritten; the model reports `uninit`. -/
def takeBytes (n : Nat) (s : List Nat) : Res (List Nat × List Nat) :=
  if n ≤ s.length then .ok (s.take n, s.drop n) else .error .uninit

/-- `os.write(m_data, sizeof(storage_type)*size)`: bucket.hpp:104-108, 208-212 -/
def plainSerialize (sbits : Nat) (b : PlainB) : Nat → Nat → Res (List Nat)
  | _, 0 => .ok []
  | i, n + 1 => do
    let x ← cellRead b i
    let r ← plainSerialize sbits b (i + 1) n
    return toBytes (sbits / 8) x ++ r

/-- `is.read(m_data, sizeof(storage_type)*size)`: bucket.hpp:98-103, 202-207 -/
def plainDeserialize (sbits : Nat) : Nat → List Nat → Res (Cells × List Nat)
  | 0, s => .ok ([], s)
  | n + 1, s => do
    let (x, s) ← takeBytes (sbits / 8) s
    let (r, s) ← plainDeserialize sbits n s
    return (some (ofBytes x) :: r, s)

/-- `plain_bucket<storage_t>`, bucket.hpp:191-306 -/
def plainOps (sbits : Nat) : BucketOps PlainB where
  empty := none
  clear := fun _ => none
  init := fun len _ => plainInitialize len
  resize := fun b _ new _ => plainResize b new
  write := fun b i x _ => cellWrite b i (x % 2 ^ sbits)
  read := fun b i _ => cellRead b i
  find := fun b key len _ => scanFrom b (key % 2 ^ sbits) 0 len
  erase := fun b pos len _ => plainErase b pos len
  serialize := fun b len _ => plainSerialize sbits b 0 len
  deserialize := fun len _ s => do
    let (cs, s) ← plainDeserialize sbits len s
    return (some cs, s)

/-- `class_bucket::resize`, bucket.hpp:331-340: new array, the first `oldsize` elements are moved one by
one.  (Moving an unwritten cell keeps it unwritten.) -/
def classResizeLoop (b : PlainB) (dst : Cells) (i : Nat) : Nat → Res Cells
  | 0 => .ok dst
  | n + 1 =>
    match b with
    | none => .error .null
    | some cs =>
      match cs[i]? with
      | none => .error .oob
      | some c => if i < dst.length then classResizeLoop b (dst.set i c) (i + 1) n else .error .oob

def classResize (b : PlainB) (old new : Nat) : Res PlainB := do
  let cs ← classResizeLoop b (List.replicate new none) 0 old
  return some cs

/-- `class_bucket<storage_t>`, bucket.hpp:309-359.  `deserialize` is inherited from `plain_bucket`
(it allocates with `malloc` what `clear` later releases with `delete[]`; the model does not
distinguish the two allocators). -/
def classOps (sbits : Nat) : BucketOps PlainB :=
  { plainOps sbits with resize := fun b old new _ => classResize b old new }

/-- `aligned_realloc`, bucket.hpp:16-29, on a memory of bytes: `oldsize/8` words, then the remaining bytes.
`words` and `tail` are the two loops. -/
def alignedCopyWords (src dst : List (Option Nat)) (i : Nat) : Nat → Res (List (Option Nat))
  | 0 => .ok dst
  | n + 1 =>
    if i * 8 + 8 ≤ src.length ∧ i * 8 + 8 ≤ dst.length then
      alignedCopyWords src (dst.take (i * 8) ++ (src.drop (i * 8)).take 8 ++ dst.drop (i * 8 + 8)) (i + 1) n
    else .error .oob

def alignedCopyTail (src dst : List (Option Nat)) (i : Nat) : Nat → Res (List (Option Nat))
  | 0 => .ok dst
  | n + 1 =>
    match src[i]? with
    | none => .error .oob
    | some c => if i < dst.length then alignedCopyTail src (dst.set i c) (i + 1) n else .error .oob

def alignedRealloc (src : List (Option Nat)) (oldsize size : Nat) : Res (List (Option Nat)) := do
  let d ← alignedCopyWords src (List.replicate size none) 0 (oldsize / 8)
  alignedCopyTail src d (oldsize / 8 * 8) (oldsize - oldsize / 8 * 8)

/-- the cells of type `storage_type` (`sz` bytes each) seen as bytes; unwritten cells are unwritten bytes -/
def cellsToBytes (sz : Nat) : Cells → List (Option Nat)
  | [] => []
  | none :: cs => List.replicate sz none ++ cellsToBytes sz cs
  | some x :: cs => (toBytes sz x).map some ++ cellsToBytes sz cs

/-- all bytes written? -/
def allSome : List (Option Nat) → Option (List Nat)
  | [] => some []
  | none :: _ => none
  | some x :: xs => (allSome xs).map (x :: ·)

/-- read `n` cells of `sz` bytes back from a byte memory -/
def bytesToCells (sz : Nat) : Nat → List (Option Nat) → Cells
  | 0, _ => []
  | n + 1, bs => (allSome (bs.take sz)).map ofBytes :: bytesToCells sz n (bs.drop sz)

/-- `avx2_bucket::resize`, bucket.hpp:116-120 -/
def avxResize (sbits : Nat) (b : PlainB) (old new : Nat) : Res PlainB :=
  match b with
  | none => if old = 0 then .ok (some (List.replicate new none)) else .error .null
  | some cs => do
    let bs ← alignedRealloc (cellsToBytes (sbits / 8) cs) (sbits / 8 * old) (sbits / 8 * new)
    return some (bytesToCells (sbits / 8) new bs)

/-- lowest set bit (`__builtin_ctz`), 32 if there is none (the code calls it on non-zero masks only) -/
def ctz32 (x : Nat) : Nat := ((List.range 32).find? (fun i => x.testBit i)).getD 32

/-- `_mm256_movemask_epi8(compare(ma, pattern))`: `sz` mask bits per lane, all set iff the lane equals the
pattern. `lanes` are the lanes from lowest to highest. -/
def moveMask (sz pattern : Nat) : List Nat → Nat
  | [] => 0
  | x :: xs => (if x = pattern then 2 ^ sz - 1 else 0) + 2 ^ sz * moveMask sz pattern xs

/-- `_mm256_load_si256`: `n` consecutive cells starting at `i` -/
def loadLanes (b : PlainB) (i : Nat) : Nat → Res (List Nat)
  | 0 => .ok []
  | n + 1 => do
    let x ← cellRead b i
    let r ← loadLanes b (i + 1) n
    return x :: r

/-- the register loop of `avx2_bucket::find`, bucket.hpp:145-154; `n` iterations left.  `none` means that the
loop ended without a return; `dbg`: is the assertion executed? -/
def avxFindLoop (dbg : Bool) (sz reg : Nat) (b : PlainB) (pattern i : Nat) : Nat → Res (Option Nat)
  | 0 => .ok none
  | n + 1 => do
    let lanes ← loadLanes b (i * reg) reg
    let mask := moveMask sz pattern lanes
    if mask = 0 then avxFindLoop dbg sz reg b pattern (i + 1) n
    else if mask = 2 ^ 32 - 1 then return some (i * reg)
    else
      ddcheck dbg (ctz32 mask / sz * sz = ctz32 mask) -- bucket.hpp:151
      return some (i * reg + ctz32 mask / sz)

/-- `avx2_bucket::find`, bucket.hpp:139-160 -/
def avxFind (dbg : Bool) (sbits : Nat) (b : PlainB) (key len : Nat) : Res Nat := do
  let sz := sbits / 8
  let reg := 32 / sz
  let r ← (if len ≥ reg then avxFindLoop dbg sz reg b (key % 2 ^ sbits) 0 (len / reg) else .ok none : Res (Option Nat))
  match r with
  | some p => return p
  | none => scanFrom b key (len / reg * reg) (len - len / reg * reg)

/-- `avx2_bucket<storage_t>`, bucket.hpp:67-180 -/
def avxOps (sbits : Nat) (dbg : Bool := false) : BucketOps PlainB :=
  { plainOps sbits with
    resize := fun b old new _ => avxResize sbits b old new
    find := fun b key len _ => avxFind dbg sbits b key len }

/-- `null_value_bucket`, separate_chaining_table.hpp:21-43: stores nothing, every read returns `true`. -/
def nullOps : BucketOps Unit where
  empty := ()
  clear := fun _ => ()
  init := fun _ _ => .ok ()
  resize := fun _ _ _ _ => .ok ()
  write := fun _ _ _ _ => .ok ()
  read := fun _ _ _ => .ok 1
  find := fun _ _ _ _ => .ok NPOS
  erase := fun _ _ _ _ => .ok ()
  serialize := fun _ _ _ => .ok []
  deserialize := fun _ _ s => .ok ((), s)

end SC
