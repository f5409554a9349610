import Verif.Prim
/-!
# A heap of blocks with identities

The models of the tables in the other directories are functional: a table owns its arrays.  This part looks at the ownership itself: which
object holds a pointer to which block of the heap, and who releases it.  Pointers can be shared and can dangle.
-/
namespace SC.Own

/-- How a block was obtained; it has to be released in the same way: `malloc`/`free`, `new[]`/`delete[]`, `_mm_malloc`/`_mm_free`. -/
inductive Alloc
  | malloc
  | new
  | aligned
  deriving DecidableEq

/-- A pointer to a block, or `nullptr`. -/
abbrev Ptr := Option Nat

/-- The contents of a block: integers, or bucket objects, each of which consists of the pointer `m_data`, bucket.hpp:75, 198, 375. -/
inductive Cell
  | data (xs : List Nat)
  | objs (ps : List Ptr)
  deriving DecidableEq

structure Blk where
  how : Alloc
  cell : Cell
  deriving DecidableEq

/-- The blocks that are currently allocated.  Addresses are not given out again, so a stale pointer never becomes valid again. -/
structure Heap where
  next : Nat
  mem : Nat → Option Blk

/-- nothing allocated -/
def Heap.empty : Heap := { next := 0, mem := fun _ => none }

/-- `malloc`, `new[]`, `_mm_malloc` -/
def Heap.alloc (h : Heap) (how : Alloc) (x : Cell) : Nat × Heap :=
  (h.next, { next := h.next + 1, mem := upd h.mem h.next (some ⟨how, x⟩) })

/-- `free`, `delete[]` of an array of integers, `_mm_free`.  Nothing happens for `nullptr`; the second release of a block and the release with
the wrong function are undefined behaviour. -/
def Heap.free (h : Heap) (how : Alloc) (p : Ptr) : Res Heap := match p with
  | none => .ok h
  | some a => match h.mem a with
    | none => .error .doubleFree
    | some b => if b.how = how then .ok { h with mem := upd h.mem a none } else .error .undef

/-- dereference a pointer; a dangling pointer gives `.undef` -/
def Heap.get (h : Heap) (p : Ptr) : Res Blk := match p with
  | none => .error .null
  | some a => match h.mem a with
    | none => .error .undef
    | some b => .ok b

/-- overwrite the contents of a block -/
def Heap.put (h : Heap) (p : Ptr) (x : Cell) : Res Heap := match p with
  | none => .error .null
  | some a => match h.mem a with
    | none => .error .undef
    | some b => .ok { h with mem := upd h.mem a (some { b with cell := x }) }

/-- a block seen as an array of integers -/
def Heap.data (h : Heap) (p : Ptr) : Res (List Nat) := do
  match (← h.get p).cell with
  | .data xs => return xs
  | .objs _ => .error .undef

/-- a block seen as an array of bucket objects -/
def Heap.objs (h : Heap) (p : Ptr) : Res (List Ptr) := do
  match (← h.get p).cell with
  | .objs ps => return ps
  | .data _ => .error .undef

/-- `p[i]` for an array of integers -/
def Heap.word (h : Heap) (p : Ptr) (i : Nat) : Res Nat := do
  match (← h.data p)[i]? with
  | some x => return x
  | none => .error .oob

/-- `p[i] = x` for an array of integers -/
def Heap.setWord (h : Heap) (p : Ptr) (i x : Nat) : Res Heap := do
  let xs ← h.data p
  if i < xs.length then h.put p (.data (xs.set i x)) else .error .oob

/-- `arr[i].m_data` -/
def Heap.obj (h : Heap) (arr : Ptr) (i : Nat) : Res Ptr := do
  match (← h.objs arr)[i]? with
  | some x => return x
  | none => .error .oob

/-- `arr[i].m_data = p` -/
def Heap.setObj (h : Heap) (arr : Ptr) (i : Nat) (p : Ptr) : Res Heap := do
  let ps ← h.objs arr
  if i < ps.length then h.put arr (.objs (ps.set i p)) else .error .oob

/-! ## Bucket objects in an array -/

/-- How a bucket class allocates: `init` is the function used in `initialize`, `resize` and `clear`, `load` the one used in `deserialize`. -/
structure BkMem where
  how : Alloc
  load : Alloc

/-- `plain_bucket` (bucket.hpp:202-207, 221-227, 240-244, 253-256) and `varwidth_bucket` (379-387, 403-410, 414-419) -/
def plainMem : BkMem := ⟨.malloc, .malloc⟩

/-- `avx2_bucket`, bucket.hpp:79-108, 116-120 -/
def avxMem : BkMem := ⟨.aligned, .aligned⟩

/-- `class_bucket`, bucket.hpp:309-342; `deserialize` is inherited and calls `plain_bucket::initialize`, bucket.hpp:202-207 -/
def classMem : BkMem := ⟨.new, .malloc⟩

/-- `arr[i].initialize(…)`: a new block, bucket.hpp:89-96, 240-244, 325-329, 414-419.  A previous block is not looked at.  The block holds the
entries that were written; its size is the subject of the properties C07-C13. -/
def Heap.initBucket (h : Heap) (how : Alloc) (arr : Ptr) (i : Nat) : Res Heap :=
  let (a, h) := h.alloc how (.data [])
  h.setObj arr i (some a)

/-- `arr[i].clear()`: release the block and set the pointer to null, bucket.hpp:79-85, 221-227, 316-321, 403-410 -/
def Heap.clearBucket (h : Heap) (how : Alloc) (arr : Ptr) (i : Nat) : Res Heap := do
  let p ← h.obj arr i
  let h ← h.free how p
  h.setObj arr i none

/-- `arr[i].resize(…)`: the entries move to a new block, the old one is released, bucket.hpp:16-29 and 116-120, 253-256 (`realloc`), 331-340.
`realloc(nullptr, …)` allocates. -/
def Heap.resizeBucket (h : Heap) (how : Alloc) (arr : Ptr) (i : Nat) : Res Heap := do
  match ← h.obj arr i with
  | none => if how = .malloc then h.initBucket how arr i else .error .null
  | some b => do
    let xs ← h.data (some b)
    let (a, h) := h.alloc how (.data xs)
    let h ← h.free how (some b)
    h.setObj arr i (some a)

/-- `arr[i].read(j, …)` -/
def Heap.readBucket (h : Heap) (arr : Ptr) (i j : Nat) : Res Nat := do
  let p ← h.obj arr i
  h.word p j

/-- `arr[i].write(j, x, …)`; the entry behind the last one is added -/
def Heap.writeBucket (h : Heap) (arr : Ptr) (i j x : Nat) : Res Heap := do
  let p ← h.obj arr i
  let xs ← h.data p
  if j = xs.length then h.put p (.data (xs ++ [x])) else h.setWord p j x

/-- `arr[i].erase(j, …)` -/
def Heap.eraseBucket (h : Heap) (arr : Ptr) (i j : Nat) : Res Heap := do
  let p ← h.obj arr i
  let xs ← h.data p
  if j < xs.length then h.put p (.data (xs.eraseIdx j)) else .error .oob

/-- `arr[i].find(x, len, …)` -/
def Heap.findBucket (h : Heap) (arr : Ptr) (i x len : Nat) : Res (Option Nat) :=
  if len = 0 then .ok none
  else do
    let p ← h.obj arr i
    let xs ← h.data p
    if len ≤ xs.length then return (xs.take len).idxOf? x else .error .oob

/-- destructors of the bucket objects in a list, last one first -/
def Heap.destroyObjs (h : Heap) (how : Alloc) : List Ptr → Res Heap
  | [] => .ok h
  | p :: ps => do
    let h ← h.destroyObjs how ps
    h.free how p

/-- `delete [] arr` for an array of bucket objects: their destructors release the buckets (bucket.hpp:163, 285, 342, 490), then the array is released -/
def Heap.deleteArr (h : Heap) (how : Alloc) (arr : Ptr) : Res Heap := match arr with
  | none => .ok h
  | some a => match h.mem a with
    | none => .error .doubleFree
    | some _ => do
      let ps ← h.objs (some a)
      let h ← h.destroyObjs how ps
      h.free .new (some a)

end SC.Own
