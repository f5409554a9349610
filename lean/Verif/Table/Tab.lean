import Verif.Table.Ops
/-!
# The control flow of the hash tables

Citations are given for the three copies: `sep` = separate_chaining_table.hpp, `cmp` = compact_chaining_map.hpp,
`grp` = group_chaining.hpp.  `cmp` has no overflow table, which is the behaviour of `dummy_overflow`.

The assertions `DDCHECK`/`DCHECK` (dcheck.hpp) are executed if the flag `debug` of the configuration is set (a build
without `NDEBUG`); those of the storage code are part of the store, see `Verif.Sep.Debug`.

Simplifications for the whole file: `m_elements` does not wrap around (it counts allocated entries); releasing memory (`clear(bucket)` during a rehash, destructors) is left
out here and treated in `Verif.Own`.
-/
namespace SC

/-- A table class after template instantiation. -/
structure Cfg (S O : Type) where
  ops : StoreOps S
  ov : OverflowOps O
  /-- `hash_mapping_t(key_width)` -/
  hash : Nat → HashMapping
  /-- `INITIAL_BUCKETS`: 16 (size.hpp:4) for sep and cmp, 8 (grp:1183) -/
  initBuckets : Nat
  /-- `m_buckets_per_group` of a new table (grp:946) -/
  initBpg : Nat
  /-- `m_buckets_per_group` of a rehashed table (grp:979) -/
  rehashBpg : Nat
  /-- storage of a table without buckets (null pointers) -/
  noStore : S
  /-- are `DDCHECK` and `DCHECK` executed (no `NDEBUG`)? -/
  debug : Bool := false
  /-- does the storage still have the array that `allocate` (size.hpp:68) expects to be missing? -/
  stale : S → Bool := fun _ => false
  /-- does `reserve` count the elements that it moves (grp:994, 1014, 1019-1020)? -/
  tally : Bool := false

/-- The data members: sep:162-178, cmp:100-110, grp:732-740.  `m_hash` is always `hash_mapping_t(m_key_width)`. -/
structure Tab (S O : Type) where
  /-- `m_key_width` -/
  kw : Nat
  /-- `m_value_width` -/
  vw : Nat
  /-- `m_buckets` -/
  tb : Nat
  /-- `m_elements` -/
  elems : Nat
  /-- `m_buckets_per_group` -/
  bpg : Nat
  /-- `m_keys`, `m_value_manager`, `m_bucketsizes`, `m_resize_strategy` / `m_storage`, `m_bucketsizes` / `m_groups` -/
  store : S
  /-- `m_overflow` -/
  ovf : O

/-- navigator/iterator state (iterator.hpp:16-17): `m_bucket`, `m_position` -/
structure Nav where
  bucket : Nat
  pos : Nat
  deriving DecidableEq, Repr

/-- `end_nav()`, `cend()`, ... : sep:482-487, 518-520; cmp:359-364, 392-394; grp:1064-1069, 1098-1103 -/
def Nav.end_ : Nav := ⟨NPOS, NPOS⟩

variable {S O : Type}

/-- constructor, sep:317-327, cmp:212-222, grp:941-953 -/
def Tab.new (g : Cfg S O) (kw vw : Nat) : Tab S O :=
  { kw := kw, vw := vw, tb := 0, elems := 0, bpg := g.initBpg, store := g.noStore, ovf := g.ov.new kw vw }

/-- the hash object of a table -/
abbrev Tab.hash (g : Cfg S O) (t : Tab S O) : HashMapping := g.hash t.kw

/-- the parameters the storage code uses -/
def Tab.dim (g : Cfg S O) (t : Tab S O) : Dim :=
  { tb := t.tb, kw := t.kw, qw := (t.hash g).remainderWidth t.tb, vw := t.vw, bpg := t.bpg }

/-- `bucket_count()`, sep:303-306, cmp:198-201, grp:918-921.  `m_buckets < 64` holds whenever it has been set by
`reserve`, which has evaluated `1ULL << reserve_bits` before. -/
def Tab.bucketCount (t : Tab S O) : Nat := if t.tb = 0 then 0 else 2 ^ t.tb

/-- First lines of `reserve`, sep:417-419, cmp:298-300, grp:960-962: the number of bits; `most_significant_bit(0)` is
-1, which becomes 255 in `uint_fast8_t`.  Both shifts are undefined for 64 and more. -/
def reserveBits (n : Nat) : Res Nat := do
  let bits := (mostSignificantBit n % 256).toNat
  let one ← shl64 1 bits
  let bits := if one ≠ n then (bits + 1) % 256 else bits
  let _ ← shl64 1 bits
  return bits

/-- `reserve` on a table without buckets, sep:421-431, cmp:302-315, grp:964-976 -/
def Tab.reserveEmpty (g : Cfg S O) (t : Tab S O) (n : Nat) : Res (Tab S O) := do
  let bits ← reserveBits n
  let t := { t with tb := bits }
  ddcheck g.debug (g.stale t.store = false)
  let s ← g.ops.alloc (t.dim g)
  let o ← g.ov.resizeBuckets t.ovf (2 ^ bits)
  return { t with store := s, ovf := o }

/-- `DDCHECK_EQ(m_hash.inv_map(quotient, bucket, m_buckets), key)` after `m_hash.map(key, m_buckets)`: sep:544, 598, 614;
cmp:411, 563, 572; grp:1114, 1172, 1190 -/
def Tab.checkMap (g : Cfg S O) (t : Tab S O) (k q b : Nat) : Res Unit :=
  if g.debug = true then do
    let k' ← (t.hash g).invMap q b t.tb
    ddcheck true (k' = k)
  else .ok ()

theorem checkMap_ok {g : Cfg S O} {t : Tab S O} {k q b : Nat} (h : (g.hash t.kw).invMap q b t.tb = .ok k) :
    t.checkMap g k q b = .ok () := by
  unfold Tab.checkMap
  split
  · rw [h, ok_bind, ddcheck_ok rfl]
  · rfl

/-- Insert the entries of bucket `b` into `tmp`: sep:445-453, cmp:327-341, grp:1001-1015. -/
def Tab.moveBucket (g : Cfg S O) (ins : Tab S O → Nat → Nat → Res (Tab S O × Nav)) (t tmp : Tab S O) (b : Nat) :
    Res (Tab S O) := do
  let n ← g.ops.size t.store (t.dim g) b
  (List.range n).foldlM (fun tmp i => do
    let q ← g.ops.quotientAt t.store (t.dim g) b i
    let k ← (t.hash g).invMap q b t.tb
    let v ← g.ops.valueAt t.store (t.dim g) b i
    let (tmp, _) ← ins tmp k v
    return tmp) tmp

/-- `DDCHECK_EQ(elements, m_elements)`, grp:1019-1020: `elements` is the number of entries in the buckets of this table (grp:994,
1014), which are still there when they are counted, and of the overflow table. -/
def Tab.checkTally (g : Cfg S O) (t : Tab S O) : Res Unit :=
  if g.debug = true ∧ g.tally = true then do
    let n ← (List.range t.bucketCount).foldlM (fun a b => do
      let n ← g.ops.size t.store (t.dim g) b
      return a + n) 0
    ddcheck true (n + g.ov.size t.ovf = t.elems)
  else .ok ()

/-- Insert the entries of the overflow table into `tmp`: sep:457-461, grp:1025-1029.  The first argument bounds the
number of iterations of the `while` loop. -/
def Tab.moveOverflow (g : Cfg S O) (ins : Tab S O → Nat → Nat → Res (Tab S O × Nav)) (t : Tab S O) :
    Nat → Nat → Tab S O → Res (Tab S O)
  | 0, _, _ => .error .fuel
  | f + 1, i, tmp =>
    if g.ov.validPosition t.ovf i then do
      let k ← g.ov.key t.ovf i
      let v ← g.ov.read t.ovf i
      let (tmp, _) ← ins tmp k v
      Tab.moveOverflow g ins t f (g.ov.nextPosition t.ovf i) tmp
    else .ok tmp

/-- `reserve(reserve, new_key_width)`, sep:416-468, cmp:297-346, grp:958-1035; only grp has the second parameter, the
others behave as for 0.  The assertion on `m_elements` (sep:464, grp:1031) is missing in cmp, where the model executes it
all the same.  `ins` is `find_or_insert`.  The buckets are visited in increasing order (grp visits them group
by group, skipping empty groups, which gives the same order).  After `clear_structure(); swap(tmp_map)` the table is the
temporary table. -/
def Tab.reserveWith (g : Cfg S O) (ins : Tab S O → Nat → Nat → Res (Tab S O × Nav)) (t : Tab S O) (n nkw : Nat) :
    Res (Tab S O) := do
  let bits ← reserveBits n
  if t.tb = 0 then t.reserveEmpty g n
  else
    let tmp := { Tab.new g (if nkw = 0 then t.kw else nkw) t.vw with bpg := g.rehashBpg }
    let tmp ← tmp.reserveEmpty g (2 ^ bits)
    let tmp ← (List.range t.bucketCount).foldlM (fun tmp b => t.moveBucket g ins tmp b) tmp
    t.checkTally g
    let tmp ← t.moveOverflow g ins (g.ov.size t.ovf + 1) (g.ov.firstPosition t.ovf) tmp
    ddcheck g.debug (t.elems = tmp.elems)
    return tmp

/-- `find_or_insert(key, value)`, sep:610-684, cmp:568-615, grp:1185-1277.  The first argument bounds the depth of the
recursion. -/
def Tab.findOrInsert (g : Cfg S O) : Nat → Tab S O → Nat → Nat → Res (Tab S O × Nav)
  | 0, _, _, _ => .error .fuel
  | f + 1, t, k, v => do
    ddcheck g.debug (1 < t.kw)
    let t ← (if t.tb = 0 then t.reserveEmpty g (min (t.kw - 1) g.initBuckets) else .ok t : Res (Tab S O))
    let (q, b) ← (t.hash g).map k t.tb
    t.checkMap g k q b
    let pos ← g.ops.locate t.store (t.dim g) b q
    if pos ≠ NPOS then return (t, ⟨b, pos⟩)
    let consult ← g.ov.needConsult t.ovf b
    let opos ← (if consult then g.ov.find t.ovf k else .ok NPOS : Res Nat)
    if opos ≠ NPOS then return (t, ⟨t.bucketCount, opos⟩)
    let full ← g.ops.full t.store (t.dim g) b
    if full then
      let (o, p) ← (if g.ov.size t.ovf < g.ov.capacity t.ovf then g.ov.insert t.ovf b k v
        else .ok (t.ovf, NPOS) : Res (O × Nat))
      let t := { t with ovf := o }
      if p ≠ NPOS then return ({ t with elems := t.elems + 1 }, ⟨t.bucketCount, p⟩)
      let n ← shl64 1 (t.tb + 1)
      let t ← t.reserveWith g (Tab.findOrInsert g f) n 0
      Tab.findOrInsert g f t k v
    else
      let n ← g.ops.size t.store (t.dim g) b
      let s ← g.ops.push t.store (t.dim g) b q v
      return ({ t with elems := t.elems + 1, store := s }, ⟨b, n⟩)

/-- recursion bound handed to `findOrInsert` by the public functions: there are never more than 63 doublings -/
abbrev depth : Nat := 65

/-- `find_or_insert` as called by a user -/
def Tab.insert (g : Cfg S O) (t : Tab S O) (k v : Nat) : Res (Tab S O × Nav) := t.findOrInsert g depth k v

/-- `reserve` as called by a user -/
def Tab.reserve (g : Cfg S O) (t : Tab S O) (n : Nat) (nkw : Nat := 0) : Res (Tab S O) :=
  t.reserveWith g (Tab.findOrInsert g depth) n nkw

/-- `operator[]`, sep:697-699, cmp:618-620, grp:1282-1284 -/
def Tab.subscript (g : Cfg S O) (t : Tab S O) (k : Nat) : Res (Tab S O × Nav) := t.insert g k 0

/-- `find(key)`, sep:535-550, cmp:408-418, grp:1105-1120 -/
def Tab.find (g : Cfg S O) (t : Tab S O) (k : Nat) : Res Nav := do
  if t.tb = 0 then return Nav.end_
  let p ← (if 0 < g.ov.size t.ovf then g.ov.find t.ovf k else .ok NPOS : Res Nat)
  if p ≠ NPOS then return ⟨t.bucketCount, p⟩
  let (q, b) ← (t.hash g).map k t.tb
  t.checkMap g k q b
  let pos ← g.ops.locate t.store (t.dim g) b q
  if pos = NPOS then return Nav.end_
  return ⟨b, pos⟩

/-- `invalid()` of a navigator, iterator.hpp:21-26 -/
def Tab.invalid (g : Cfg S O) (t : Tab S O) (n : Nav) : Res Bool :=
  if 0 < g.ov.size t.ovf ∧ n.bucket = t.bucketCount ∧ g.ov.validPosition t.ovf n.pos = true then .ok false
  else if t.bucketCount ≤ n.bucket then .ok true
  else do
    let sz ← g.ops.size t.store (t.dim g) n.bucket
    return decide (sz ≤ n.pos)

/-- `DDCHECK(!invalid())`, iterator.hpp:46, 60 -/
def Tab.checkValid (g : Cfg S O) (t : Tab S O) (n : Nav) : Res Unit :=
  if g.debug = true then do
    let iv ← t.invalid g n
    ddcheck true (iv = false)
  else .ok ()

theorem checkValid_ok {g : Cfg S O} {t : Tab S O} {n : Nav} (h : t.invalid g n = .ok false) : t.checkValid g n = .ok () := by
  unfold Tab.checkValid
  split
  · rw [h, ok_bind, ddcheck_ok rfl]
  · rfl

/-- `operator==` of navigators and iterators, iterator.hpp:131-134 and 184-186 -/
def Tab.navEq (g : Cfg S O) (t : Tab S O) (a b : Nav) : Res Bool := do
  let ib ← t.invalid g b
  let ia ← t.invalid g a
  return if !ib && !ia then decide (a = b) else decide (ib = ia)

/-- `count(key)`, sep:704-706, cmp:625-627 (grp has no such function) -/
def Tab.count (g : Cfg S O) (t : Tab S O) (k : Nat) : Res Nat := do
  let n ← t.find g k
  let e ← t.navEq g n Nav.end_
  return if e then 0 else 1

/-- `locate(key)`, sep:594-608, cmp:560-566, grp:1167-1182 -/
def Tab.locate (g : Cfg S O) (t : Tab S O) (k : Nat) : Res Nav := do
  if t.tb = 0 then throw .exc
  let (q, b) ← (t.hash g).map k t.tb
  t.checkMap g k q b
  let consult ← g.ov.needConsult t.ovf b
  let p ← (if consult ∧ 0 < g.ov.size t.ovf then g.ov.find t.ovf k else .ok NPOS : Res Nat)
  if p ≠ NPOS then return ⟨t.bucketCount, p⟩
  let pos ← g.ops.locate t.store (t.dim g) b q
  return ⟨b, pos⟩

/-- `value()` of a navigator, iterator.hpp:59-65, and `value_at(bucket, position)`, sep:264-270, cmp:438-449,
grp:870-876, which it calls -/
def Tab.valueAt (g : Cfg S O) (t : Tab S O) (n : Nav) : Res Nat := do
  t.checkValid g n
  if 0 < g.ov.size t.ovf ∧ n.bucket = t.bucketCount then g.ov.read t.ovf n.pos
  else if n.bucket = t.bucketCount then g.ov.read t.ovf n.pos
  else
    ddcheck g.debug (n.bucket < t.bucketCount)
    g.ops.valueAt t.store (t.dim g) n.bucket n.pos

/-- `key()` of a navigator, iterator.hpp:45-57 -/
def Tab.keyAt (g : Cfg S O) (t : Tab S O) (n : Nav) : Res Nat := do
  t.checkValid g n
  ddcheck g.debug (0 < (t.dim g).qw ∧ (t.dim g).qw ≤ t.kw)
  if 0 < g.ov.size t.ovf ∧ n.bucket = t.bucketCount then g.ov.key t.ovf n.pos
  else
    let q ← g.ops.quotientAt t.store (t.dim g) n.bucket n.pos
    (t.hash g).invMap q n.bucket t.tb

/-- `write_value(bucket, position, value)`, sep:686-695, cmp:465-477, grp:877-887; assignment to a navigator
(iterator.hpp:78-81) -/
def Tab.writeValue (g : Cfg S O) (t : Tab S O) (n : Nav) (v : Nat) : Res (Tab S O) :=
  if n.bucket = t.bucketCount then do
    let o ← g.ov.write t.ovf n.pos v
    return { t with ovf := o }
  else do
    ddcheck g.debug (n.bucket < t.bucketCount)
    let s ← g.ops.writeValue t.store (t.dim g) n.bucket n.pos v
    return { t with store := s }

/-- `erase(bucket, position)`, sep:708-751, cmp:629-715, grp:1304-1364 -/
def Tab.eraseNav (g : Cfg S O) (t : Tab S O) (n : Nav) : Res (Tab S O × Nat) := do
  if n.pos = NPOS then return (t, 0)
  if 0 < g.ov.size t.ovf ∧ n.bucket = t.bucketCount then
    let o ← g.ov.erase t.ovf n.pos
    return ({ t with ovf := o, elems := t.elems - 1 }, 1)
  ddcheck g.debug (n.bucket < t.bucketCount)
  let s ← g.ops.eraseAt t.store (t.dim g) n.bucket n.pos
  return ({ t with store := s, elems := t.elems - 1 }, 1)

/-- `erase(key)`, sep:755-760, cmp:719-723, grp:1289-1294 -/
def Tab.erase (g : Cfg S O) (t : Tab S O) (k : Nat) : Res (Tab S O × Nat) := do
  if t.tb = 0 then return (t, 0)
  let n ← t.locate g k
  t.eraseNav g n

/-- `shrink_to_fit()`, sep:196-202 (empty functions in cmp:113-116 and grp:1279) -/
def Tab.shrink (g : Cfg S O) (t : Tab S O) : Res (Tab S O) := do
  if t.tb = 0 then return t
  (List.range t.bucketCount).foldlM (fun t b => do
    let s ← g.ops.shrink t.store (t.dim g) b
    return { t with store := s }) t

/-- `clear()`, sep:243-255 with 229-238, cmp:155-164 with 140-150, grp:832-839 with 814-827 -/
def Tab.clear (g : Cfg S O) (t : Tab S O) : Tab S O :=
  { t with tb := 0, elems := 0, store := g.noStore, ovf := g.ov.clear t.ovf }

/-- `size()`, sep:285-287, cmp:184-186, grp:904-906 -/
def Tab.size (t : Tab S O) : Nat := t.elems

/-- `empty()`, sep:282, cmp:181, grp:901 -/
def Tab.isEmpty (t : Tab S O) : Bool := t.elems == 0

end SC
