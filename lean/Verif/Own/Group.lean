import Verif.Own.Prog
import Verif.Own.Model
/-!
# Ownership in `group_chaining_table`

The table as it lies in memory, as for `separate_chaining_table` in `Own.Model`.  Simplifications: the hash function is any function that chooses a
bucket; the memory of a group holds keys instead of quotients (the quotient and the bucket determine the key, C03) in the order of their insertion
(the code sorts them by bucket, C40-C42), and the contents of `m_border` are not shown; the overflow table is `dummy_overflow`, which has no memory;
no debug arrays; a stream that is read back comes from a table with the same widths.
-/
namespace SC.Own

/-- Parameters: key width, hash function, bits of a quotient for a given number of buckets (`remainder_width`), value width, bits of the words of a
group (`internal_bitwidth`, group:24), `max_group_size()` (group:913-915). -/
structure GCfg where
  kw : Nat
  hash : Nat → Nat → Nat
  width : Nat → Nat
  vw : Nat
  sb : Nat
  maxSize : Nat

/-- The object: `m_groups`, `m_buckets`, `m_elements`, `m_buckets_per_group`, group:732-740.  An element of the array `m_groups` is a
`keyvalue_group` with the pointers `m_values.m_data`, `m_keys.m_data`, `m_border` and the number `m_size` (group:31, 376-379).  The pointers are shown as
three consecutive objects of the block `groups`, the numbers in the block `sizes`; both are allocated and released together. -/
structure GTab where
  groups : Ptr
  sizes : Ptr
  lg : Nat
  elems : Nat
  bpg : Nat
  deriving DecidableEq

namespace Grp

/-- where the pointers of group `g` are: `m_values.m_data`, `m_keys.m_data`, `m_border` -/
def vslot (g : Nat) : Nat := 3 * g
def kslot (g : Nat) : Nat := 3 * g + 1
def bslot (g : Nat) : Nat := 3 * g + 2

/-- constructor, group:941-953 with the member initialisers 732-740 -/
def new : GTab := { groups := none, sizes := none, lg := 0, elems := 0, bpg := 3 }

/-- `bucket_count()`, group:918-921 -/
def bucketCount (t : GTab) : Nat := if t.lg = 0 then 0 else 2 ^ t.lg

/-- `group_count()`, group:923-925 -/
def groupCount (t : GTab) : Nat := if t.groups = none then 0 else bucketCount t / t.bpg + 1

/-- `m_groups[g].clear()`, group:453-460 with `core_group::clear`, group:37-49 -/
def clearGroup (t : GTab) (h : Heap) (g : Nat) : Res Heap := do
  let h ← h.clearBucket .malloc t.groups (bslot g)
  let h ← h.clearBucket .malloc t.groups (kslot g)
  let h ← h.clearBucket .malloc t.groups (vslot g)
  h.setWord t.sizes g 0

/-- `clear_structure()`, group:814-829; `delete[]` calls the destructors of the groups, last one first (group:678, 330) -/
def clearStructure (h : Heap) (t : GTab) : Res (GTab × Heap) := do
  let h ← (if t.groups ≠ none then do
      let h ← h.deleteArr .malloc t.groups
      h.free .new t.sizes
    else .ok h : Res Heap)
  return ({ t with groups := none, sizes := none, lg := 0, elems := 0 }, h)

/-- one round of the loop in `clear()`, group:834-837 -/
def clearNonempty (t : GTab) (h : Heap) (g : Nat) : Res Heap := do
  if (← h.word t.sizes g) = 0 then return h else clearGroup t h g

/-- `clear()`, group:832-839 -/
def clear (h : Heap) (t : GTab) : Res (GTab × Heap) := do
  let h ← (List.range (groupCount t)).foldlM (clearNonempty t) h
  clearStructure h t

/-- `~group_chaining_table()`, group:1286 -/
def destroy (h : Heap) (t : GTab) : Res Heap := do
  let (_, h) ← clear h t
  return h

/-- `reserve` on a table without buckets, group:964-977; what `m_groups` points to is not looked at -/
def reserveEmpty (h : Heap) (t : GTab) (bits : Nat) : GTab × Heap :=
  let n := 2 ^ bits / t.bpg + 1
  let groups := h.alloc .new (.objs (List.replicate (3 * n) none))
  let sizes := groups.2.alloc .new (.data (List.replicate n 0))
  ({ t with groups := some groups.1, sizes := some sizes.1, lg := bits }, sizes.2)

/-- `a.swap(b)`, group:753-768, for two different tables -/
def swap (h : Heap) (a b : GTab) : Res (GTab × GTab × Heap) :=
  .ok ({ groups := b.groups, sizes := b.sizes, lg := b.lg, elems := b.elems, bpg := b.bpg },
    { groups := a.groups, sizes := a.sizes, lg := a.lg, elems := a.elems, bpg := a.bpg }, h)

/-- move assignment, group:747-751, for two different tables; gives target and source -/
def moveAssign (h : Heap) (t o : GTab) : Res (GTab × GTab × Heap) := do
  let (t, h) ← clear h t
  swap h t o

/-- `x = std::move(x)`, group:747-751: swapping a table with itself does nothing -/
def selfMove (h : Heap) (t : GTab) : Res (GTab × Heap) := clear h t

/-- `find_or_insert` as a parameter -/
abbrev Ins := Heap → GTab → Nat → Nat → Res (GTab × Heap)

/-- insert the first `n` entries of group `g` of `t` into `tmp`, group:1000-1016; the sizes of the buckets are read from `m_border` -/
def moveEntries (ins : Ins) (t : GTab) (g : Nat) : Nat → GTab × Heap → Res (GTab × Heap)
  | 0, s => .ok s
  | n + 1, s => do
    let (tmp, h) ← moveEntries ins t g n s
    let _ ← h.data (← h.obj t.groups (bslot g))
    let k ← h.readBucket t.groups (kslot g) n
    let v ← h.readBucket t.groups (vslot g) n
    ins h tmp k v

/-- one round of the loop over the groups, group:995-1018 -/
def moveGroup (ins : Ins) (t : GTab) (s : GTab × Heap) (g : Nat) : Res (GTab × Heap) := do
  let n ← s.2.word t.sizes g
  if n = 0 then return s
  else do
    let (tmp, h) ← moveEntries ins t g n s
    let h ← clearGroup t h g
    return (tmp, h)

/-- `reserve(reserve)`, group:958-1034 -/
def reserveWith (ins : Ins) (h : Heap) (t : GTab) (n : Nat) : Res (GTab × Heap) := do
  let bits ← reserveBits n
  if t.lg = 0 then return reserveEmpty h t bits
  else do
    let (tmp, h) := reserveEmpty h { new with bpg := 64 } bits
    let (tmp, h) ← (List.range (groupCount t)).foldlM (moveGroup ins t) (tmp, h)
    let (t, h) ← clearStructure h t
    let (t, tmp, h) ← swap h t tmp
    let h ← destroy h tmp
    return (t, h)

variable (c : GCfg)

/-- `m_groups[g].initialize(…)`, group:463-490 with `core_group::initialize`, group:89-102 -/
def initGroup (h : Heap) (t : GTab) (g : Nat) : Res Heap := do
  let h ← h.initBucket .malloc t.groups (kslot g)
  let h ← h.initBucket .malloc t.groups (vslot g)
  let h ← h.setWord t.sizes g 0
  h.initBucket .malloc t.groups (bslot g)

/-- `core_group::insert`, group:163-247: the block with `n` entries of `w` bits grows if need be, then the entry is written -/
def insertCore (h : Heap) (t : GTab) (slot w n x : Nat) : Res Heap := do
  let h ← (if ceilDiv (w * n) c.sb < ceilDiv (w * (n + 2)) c.sb then h.resizeBucket .malloc t.groups slot else .ok h : Res Heap)
  h.writeBucket t.groups slot n x

/-- `m_groups[g].push_back(…)`, group:517-563, where the group has `n` entries -/
def push (h : Heap) (t : GTab) (g n k v : Nat) : Res Heap := do
  let _ ← h.data (← h.obj t.groups (bslot g))
  let h ← insertCore c h t (kslot g) (c.width t.lg) n k
  let h ← insertCore c h t (vslot g) c.vw n v
  let h ← h.setWord t.sizes g ((n + 1) % 2 ^ 32)
  if ceilDiv (n + 1 + t.bpg) c.sb < ceilDiv (n + 2 + t.bpg) c.sb then h.resizeBucket .malloc t.groups (bslot g) else return h

/-- `locate(bucket, quotient)`, group:1123-1158, for a group with `n` entries: nothing is read from an empty group -/
def findGroup (h : Heap) (t : GTab) (g n k : Nat) : Res (Option Nat) :=
  if n = 0 then .ok none
  else do
    let _ ← h.data (← h.obj t.groups (bslot g))
    h.findBucket t.groups (kslot g) k n

/-- `find_or_insert(key, value)`, group:1185-1275; the first argument bounds the depth of the recursion -/
def insert : Nat → Ins
  | 0, _, _, _, _ => .error .fuel
  | f + 1, h, t, k, v => do
    let (t, h) ← (if t.lg = 0 then do
        let bits ← reserveBits (min (c.kw - 1) 8)
        return reserveEmpty h t bits
      else return (t, h) : Res (GTab × Heap))
    let g := c.hash t.lg k / t.bpg
    let n ← h.word t.sizes g
    match ← findGroup h t g n k with
    | some _ => return (t, h)
    | none =>
      if n = c.maxSize then do
        let m ← shl64 1 (t.lg + 1)
        let (t, h) ← reserveWith (insert f) h t m
        insert f h t k v
      else do
        let h ← (if (← h.obj t.groups (bslot g)) = none then initGroup h t g else return h : Res Heap)
        let h ← push c h t g n k v
        return ({ t with elems := t.elems + 1 }, h)

/-- `find(key)` and `count(key)`, group:1105-1120: only reads -/
def find (h : Heap) (t : GTab) (k : Nat) : Res (Option Nat) :=
  if t.lg = 0 then .ok none
  else do
    let g := c.hash t.lg k / t.bpg
    let n ← h.word t.sizes g
    findGroup h t g n k

/-- `erase(key)`, group:1289-1293 and 1304-1365, with `keyvalue_group::erase`, group:565-636: the memory of keys and values does not shrink
(group:143-151 compares the wrong way round), that of the borders does -/
def erase (h : Heap) (t : GTab) (k : Nat) : Res (GTab × Heap) :=
  if t.lg = 0 then .ok (t, h)
  else do
    let g := c.hash t.lg k / t.bpg
    let n ← h.word t.sizes g
    match ← findGroup h t g n k with
    | none => return (t, h)
    | some i => do
      let h ← h.eraseBucket t.groups (kslot g) i
      let h ← h.eraseBucket t.groups (vslot g) i
      let h ← h.setWord t.sizes g ((n + (2 ^ 32 - 1)) % 2 ^ 32)
      let h ← (if ceilDiv (n + t.bpg) c.sb < ceilDiv (n + 1 + t.bpg) c.sb then h.resizeBucket .malloc t.groups (bslot g) else return h : Res Heap)
      let h ← (if (n + (2 ^ 32 - 1)) % 2 ^ 32 = 0 then clearGroup t h g else return h : Res Heap)
      return ({ t with elems := t.elems - 1 }, h)

/-- `m_groups[g].deserialize(…)`, group:409-432, with the entries `xs` in the stream -/
def loadGroup (t : GTab) (gs : List (List (Nat × Nat))) (h : Heap) (g : Nat) : Res Heap := do
  let h ← clearGroup t h g
  let xs := gs.getD g []
  let h ← h.setWord t.sizes g xs.length
  if xs.length = 0 then return h
  else do
    let h ← h.loadBucket .malloc t.groups (bslot g) []
    let h ← h.loadBucket .malloc t.groups (kslot g) (xs.map Prod.fst)
    h.loadBucket .malloc t.groups (vslot g) (xs.map Prod.snd)

/-- `deserialize`, group:1449-1475, with `m_buckets`, `m_buckets_per_group` and the groups in the stream; `m_elements` is the number of entries -/
def load (h : Heap) (t : GTab) (bits bpg : Nat) (gs : List (List (Nat × Nat))) : Res (GTab × Heap) := do
  let (t, h) ← clear h t
  let t := { t with elems := (gs.map List.length).sum, bpg := bpg }
  if t.elems = 0 then return (t, h)
  else do
    let m ← shl64 1 bits
    let (t, h) ← reserveWith (fun _ _ _ _ => .error .fuel) h t m
    let h ← (List.range (groupCount t)).foldlM (loadGroup t gs) h
    return (t, h)

/-- calls on a table -/
inductive Op
  | insert (k v : Nat)
  | find (k : Nat)
  | erase (k : Nat)
  | clear
  | reserve (n : Nat)
  | load (bits bpg : Nat) (gs : List (List (Nat × Nat)))

/-- a call; `f` bounds the depth of the recursion -/
def call (f : Nat) (h : Heap) (t : GTab) : Op → Res (GTab × Heap)
  | .insert k v => insert c f h t k v
  | .find k => do
    let _ ← find c h t k
    return (t, h)
  | .erase k => erase c h t k
  | .clear => clear h t
  | .reserve n => reserveWith (insert c f) h t n
  | .load bits bpg gs => load h t bits bpg gs

/-- the class -/
def cls : TabClass GTab Op := { new := new, call := call c, swap := swap, moveAssign := moveAssign, selfMove := selfMove, destroy := destroy }

end Grp
end SC.Own
