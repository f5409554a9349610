import Verif.Group.Table
import Verif.Compact.Debug
/-!
# `group_chaining_table` in a debug build

Without `NDEBUG` every packed array has a plain copy and knows its width, its length and the number of its blocks; every group
knows the number of its buckets, the length of its border and the ends of its buckets; the table keeps copies of all keys and
values and the size of each bucket.  The definitions follow those of the release build (`Verif.Group.Core`, `Verif.Group.Border`,
`Verif.Group.Group`, `Verif.Group.Store`) with the assertions added.  `HEAVY_DEBUG` is not defined.
-/
namespace SC

/-! ## `core_group` -/

/-- `core_group` of a debug build, grp:27-31: `m_data`, `m_key_width`, `m_length`, `m_blocksize`, `m_plain_data` -/
structure CoreDbg where
  data : VarB
  width : Nat
  length : Nat
  blocks : Nat
  plain : PlainB

/-- `clear()`, grp:37-49 -/
def CoreDbg.clear (x : CoreDbg) : CoreDbg := { x with data := none, length := 0, blocks := 0, plain := none }

/-- `initialize(width)`, grp:89-102 -/
def CoreDbg.init (x : CoreDbg) (w : Nat) : Res CoreDbg := do
  ddcheck true (x.plain.isNone = true)
  ddcheck true (x.data.isNone = true)
  return { data := coreInit w, width := w, length := 0, blocks := ceilDiv w 64, plain := some [some 0] }

/-- `read_(i, key_width)`, grp:250-255 -/
def CoreDbg.readRaw (c : GrpCfg) (x : CoreDbg) (i w : Nat) : Res Nat := do
  ddcheck true (x.width = w)
  ddcheck true (i < x.length)
  ddcheck true (i * w / 64 + i * w % 64 < 64 * ceilDiv (x.length * w) 64)
  coreRead c x.data i w

/-- `read(i, key_width)`, grp:258-264 -/
def CoreDbg.read (c : GrpCfg) (x : CoreDbg) (i w : Nat) : Res Nat := do
  ddcheck true (x.width = w)
  let r ← x.readRaw c i w
  let p ← cellRead x.plain i
  ddcheck true (p = r)
  return r

/-- the loops of lines 156-158 and 242-244 from `i` on, `n` iterations left -/
def CoreDbg.verify (c : GrpCfg) (x : CoreDbg) (w i : Nat) : Nat → Res Unit
  | 0 => .ok ()
  | n + 1 => do
    let p ← cellRead x.plain i
    let r ← x.read c i w
    ddcheck true (p = r)
    CoreDbg.verify c x w (i + 1) n

/-- `erase(index, key_width, length)`, grp:104-160 -/
def CoreDbg.erase (c : GrpCfg) (x : CoreDbg) (idx w len : Nat) : Res CoreDbg := do
  ddcheck true (x.width = w)
  ddcheck true (x.plain.isSome = true)
  ddcheck true (len = x.length)
  let data ← coreErase c x.data idx w len
  let pl ← cellDown 1 x.plain (idx + 1) (len - (idx + 1))
  let pl ← (if len - 1 > 0 then plainResize pl (len - 1) else .ok pl : Res PlainB)
  let y : CoreDbg := { x with data := data, plain := pl, length := len - 1 }
  y.verify c w 0 y.length
  return y

/-- the loop of `insert`, grp:210-218, see `shiftChunks`; `readPos` is `read_pos` -/
def shiftChunksDbg (strict : Bool) (blocks : Nat) (m : Buf) (rd wr : Cursor) (readPos : Nat) : Nat → Res Buf
  | 0 => .ok m
  | n + 1 => do
    let v ← readInt strict m rd.base rd.off 64
    ddcheck true (wr.base + wr.off + 64 ≤ 64 * blocks)
    let m ← writeInt strict m wr.base v wr.off 64
    ddcheck true (64 ≤ readPos)
    shiftChunksDbg strict blocks m (rd.moveLeft 64) (wr.moveLeft 64) (readPos - 64) n

/-- the changes of `m_data` in `insert`, grp:175-240, see `coreInsert`; `blocks` and `length` are the new values of `m_blocksize` and
`m_length` -/
def coreInsertDbg (c : GrpCfg) (blocks length : Nat) (b : VarB) (idx key w len : Nat) : Res VarB := do
  let old := ceilDiv (w * len) 64
  let new := ceilDiv (w * (len + 2)) 64
  let b := if old < new then
      let m := match b with
        | some m => reallocBits c.junk m (64 * new)
        | none => mallocBits c.junk (64 * new)
      some { m with bits := writeBits m.bits (64 * (new - 1)) 64 0 }
    else b
  let m ← deref b
  let readPos := len * w
  let n := (len - idx) * w / 64
  let m ← (if n > 0 then do
      ddcheck true (readPos - 64 + 64 ≤ length * w)
      ddcheck true (readPos + w - 64 + 64 ≤ length * w)
      shiftChunksDbg c.strict blocks m ⟨(readPos - 64) / 64 * 64, (readPos - 64) % 64⟩
        ⟨(readPos + w - 64) / 64 * 64, (readPos + w - 64) % 64⟩ readPos n
    else .ok m : Res Buf)
  let readPos := readPos - n * 64
  let m ← (if len > 0 ∧ readPos > idx * w then do
      let rem := (len - idx) * w - n * 64
      let v ← readInt c.strict m ((idx * w) / 64 * 64) ((idx * w) % 64) rem
      ddcheck true (((idx + 1) * w) / 64 * 64 + ((idx + 1) * w) % 64 + rem ≤ 64 * blocks)
      writeInt c.strict m (((idx + 1) * w) / 64 * 64) v (((idx + 1) * w) % 64) rem
    else .ok m : Res Buf)
  ddcheck true ((idx * w) / 64 * 64 + (idx * w) % 64 + w ≤ 64 * blocks)
  let m ← writeInt c.strict m ((idx * w) / 64 * 64) key ((idx * w) % 64) w
  return some m

/-- `insert(index, key, key_width, length)`, grp:163-247.  The last loop (line 242) runs up to the old length: the new last entry
is not compared. -/
def CoreDbg.insert (c : GrpCfg) (x : CoreDbg) (idx key w len : Nat) : Res CoreDbg := do
  ddcheck true (x.width = w)
  ddcheck true (x.plain.isSome = true)
  ddcheck true (len = x.length)
  let pl ← plainResize x.plain (len + 1)
  let pl ← cellUp pl idx (len - idx)
  let pl ← cellWrite pl idx key
  let blocks := ceilDiv (w * (len + 2)) 64
  let data ← coreInsertDbg c blocks (len + 1) x.data idx key w len
  let y : CoreDbg := { x with data := data, length := len + 1, blocks := blocks, plain := pl }
  y.verify c w 0 len
  return y

/-- `write_(index, key, key_width)`, grp:267-274 -/
def CoreDbg.writeRaw (c : GrpCfg) (x : CoreDbg) (i v w : Nat) : Res VarB := do
  ddcheck true (x.width = w)
  ddcheck true (mostSignificantBit v ≤ (w : Int))
  ddcheck true (i < x.length)
  ddcheck true (i * w / 64 + i * w % 64 < 64 * ceilDiv (x.length * w) 64)
  coreWrite c x.data i v w

/-- the loop of lines 288-290 from `i` on, `n` iterations left -/
def CoreDbg.reread (c : GrpCfg) (x : CoreDbg) (w i : Nat) : Nat → Res Unit
  | 0 => .ok ()
  | n + 1 => do
    let _ ← x.read c i w
    CoreDbg.reread c x w (i + 1) n

/-- `write(index, key, key_width)`, grp:277-292 -/
def CoreDbg.write (c : GrpCfg) (x : CoreDbg) (i v w : Nat) : Res CoreDbg := do
  ddcheck true (x.width = w)
  ddcheck true (mostSignificantBit v ≤ (w : Int))
  ddcheck true (i < x.length)
  let p ← cellRead x.plain i
  let r ← x.read c i w
  ddcheck true (p = r)
  let pl ← cellWrite x.plain i v
  let data ← CoreDbg.writeRaw c { x with plain := pl } i v w
  let y : CoreDbg := { x with data := data, plain := pl }
  let r ← y.read c i w
  ddcheck true (v = r)
  y.reread c w 0 y.length
  return y

/-- the loop of `find`, grp:317-324, see `coreScan`; after it `find_debug(lo, key, lo + cnt)` is called (grp:296-301, 325) -/
def coreScanDbg (strict : Bool) (m : Buf) (plain : PlainB) (blocks key w lo cnt i : Nat) (cur : Cursor) : Nat → Res Nat
  | 0 => do
    let r ← scanFrom plain key lo cnt
    ddcheck true (r = NPOS)
    return NPOS
  | n + 1 => do
    ddcheck true (cur.base + cur.off + w ≤ 64 * blocks)
    let (v, cur) ← readIntAndMove strict m cur w
    let p ← cellRead plain i
    ddcheck true (v = p)
    if v = key then return i
    coreScanDbg strict m plain blocks key w lo cnt (i + 1) cur n

/-- `find(position_from, key, position_to, key_width)`, grp:309-327 -/
def CoreDbg.find (c : GrpCfg) (x : CoreDbg) (lo key hi w : Nat) : Res Nat := do
  ddcheck true (x.width = w)
  ddcheck true (lo < hi)
  ddcheck true (hi ≤ x.length)
  let m ← deref x.data
  coreScanDbg c.strict m x.plain x.blocks key w lo (hi - lo) lo ⟨(lo * w) / 64 * 64, (lo * w) % 64⟩ (hi - lo)

/-! ## `keyvalue_group` -/

/-- `keyvalue_group` of a debug build, grp:373-381: `m_size`, `m_keys`, `m_values`, `m_border`, `m_border_length`, `m_border_array`,
`m_groupsize` -/
structure GroupDbg where
  size : Nat
  keys : CoreDbg
  vals : CoreDbg
  border : Option Border
  blen : Nat
  arr : List Nat
  gs : Nat

/-- the members of the release build -/
def GroupDbg.base (x : GroupDbg) : Group := ⟨x.size, x.keys.data, x.vals.data, x.border⟩

/-- a group that does not exist -/
def GroupDbg.none : GroupDbg where
  size := 0
  keys := ⟨Option.none, 0, 0, 0, Option.none⟩
  vals := ⟨Option.none, 0, 0, 0, Option.none⟩
  border := Option.none
  blen := 0
  arr := []
  gs := 0

/-- The default constructor for the groups of a new array (grp:974): members without initializer hold what was in memory. -/
def GroupDbg.fresh (c : GrpCfg) : GroupDbg where
  size := 0
  keys := ⟨Option.none, junkWord c 0, junkWord c 1, junkWord c 2, Option.none⟩
  vals := ⟨Option.none, junkWord c 3, junkWord c 4, junkWord c 5, Option.none⟩
  border := Option.none
  blen := junkWord c 6
  arr := []
  gs := 0

/-- `clear()`, grp:453-460 -/
def GroupDbg.clear (x : GroupDbg) : GroupDbg :=
  { x with size := 0, keys := x.keys.clear, vals := x.vals.clear, border := Option.none, arr := [] }

/-- the loops that add up the ones of the border: grp:482-485, 556-559, 628-631; `n` words left -/
def Border.ones (b : Border) (i sum : Nat) : Nat → Res Nat
  | 0 => .ok sum
  | n + 1 => do
    let x ← b.get i
    b.ones (i + 1) (sum + popcount x) n

/-- `initialize(groupsize, key_width, valuewidth)`, grp:463-488 -/
def GroupDbg.init (c : GrpCfg) (x : GroupDbg) (bpg qw vw : Nat) : Res GroupDbg := do
  ddcheck true (x.border.isNone = true)
  let keys ← x.keys.init qw
  let vals ← x.vals.init vw
  ddcheck true (bpg ≤ 255)
  let b ← borderInit c bpg
  let blen := ceilDiv (bpg + 1) 64
  let arr := x.arr.take bpg ++ List.replicate (bpg - x.arr.length) 0
  let n ← b.ones 0 0 blen
  ddcheck true (n = bpg + 1)
  return { size := 0, keys := keys, vals := vals, border := some b, blen := blen, arr := arr, gs := bpg }

/-- `m_border_array[i]` -/
def vecGet (l : List Nat) (i : Nat) : Res Nat :=
  match l[i]? with
  | some a => .ok a
  | none => .error .oob

/-- the loop of `find_group_position`, grp:508-514, see `Border.findLoop`; `g` is `groupindex` -/
def Border.findLoopDbg (bmi : Bool) (b : Border) (blen : Nat) (arr : List Nat) (g : Nat) : Nat → Nat → Nat → Nat → Res Nat
  | 0, _, _, _ => .error .fuel
  | f + 1, i, rem, sum => do
    ddcheck true (i < blen)
    let x ← b.get i
    if popcount x ≤ rem then b.findLoopDbg bmi blen arr g f (i + 1) (rem - popcount x) (sum + 64)
    else do
      let r ← select64 bmi x (rem + 1)
      let a ← vecGet arr g
      ddcheck true (sum + r = a + g)
      return sum + r

/-- access to `m_border` -/
def GroupDbg.getBorder (x : GroupDbg) : Res Border :=
  match x.border with
  | some b => .ok b
  | Option.none => .error .null

/-- `find_group_position(groupindex)`, grp:504-515 -/
def GroupDbg.pos (c : GrpCfg) (x : GroupDbg) (g : Nat) : Res Nat := do
  let b ← x.getBorder
  b.findLoopDbg c.bmi x.blen x.arr (g % 256) (b.len + 1) 0 (g % 256) 0

/-- `bucketsize(i)`, grp:442-449 -/
def GroupDbg.bucketsize (c : GrpCfg) (x : GroupDbg) (i : Nat) : Res Nat := do
  if x.size = 0 then return 0
  let prev ← (if i = 0 then .ok 0 else do
    let p ← x.pos c (i - 1)
    return sub64 p (i - 1) : Res Nat)
  let e ← x.pos c i
  ddcheck true ((i + prev) % W64 ≤ e)
  let e ← x.pos c i
  let ret := sub64 (sub64 e i) prev
  let a ← vecGet x.arr i
  let a' ← (if i = 0 then .ok 0 else vecGet x.arr (i - 1) : Res Nat)
  ddcheck true (ret = sub64 a a')
  return ret

/-- the loops of lines 552-554 and 624-626 from `i` on, `n` iterations left -/
def GroupDbg.checkEnds (c : GrpCfg) (x : GroupDbg) (i : Nat) : Nat → Res Unit
  | 0 => .ok ()
  | n + 1 => do
    let a ← vecGet x.arr i
    let p ← x.pos c i
    ddcheck true (a = sub64 p i)
    GroupDbg.checkEnds c x (i + 1) n

/-- the change of the border in `push_back` and the tests after it, grp:524-562; `x` has the new arrays and the new size, `e` is
`group_ending` -/
def GroupDbg.pushBorder (c : GrpCfg) (x : GroupDbg) (bpg g e : Nat) : Res GroupDbg := do
  let n := ceilDiv (x.size + 1 + bpg) 64
  let blen := if n > ceilDiv (x.size + bpg) 64 then x.blen + 1 else x.blen
  ddcheck true (n = blen)
  let b ← x.getBorder
  let b ← b.push c bpg x.size e
  let y : GroupDbg := { x with border := some b, blen := blen, arr := x.arr.mapIdx (fun i a => if g ≤ i then a + 1 else a) }
  y.checkEnds c 0 y.arr.length
  let s ← b.ones 0 0 blen
  ddcheck true (s = bpg + 1)
  return y

/-- `push_back(buckets_per_group, groupindex, key, key_width, value, valuewidth)`, grp:517-563 -/
def GroupDbg.push (c : GrpCfg) (x : GroupDbg) (bpg g key qw val vw : Nat) : Res GroupDbg := do
  ddcheck true (x.size < 2 ^ 32 - 1)
  let e ← x.pos c g
  let keys ← x.keys.insert c (sub64 e g) key qw x.size
  let vals ← x.vals.insert c (sub64 e g) val vw x.size
  GroupDbg.pushBorder c { x with size := (x.size + 1) % 2 ^ 32, keys := keys, vals := vals } bpg g e

/-- the words up to that of `group_ending`, grp:582-600, see `Border.eraseHead` -/
def Border.eraseHeadDbg (b : Border) (e cur : Nat) : Res Border :=
  if e % 64 = 0 then
    if e / 64 = 0 then .error .oob
    else do
      let p ← b.get (e / 64 - 1)
      ddcheck true (p &&& 2 ^ 63 = 0)
      ddcheck true (cur &&& 1 = 1)
      let b ← b.set (e / 64 - 1) (p ||| 2 ^ 63)
      b.set (e / 64) (cur >>> 1)
  else do
    ddcheck true (cur &&& 2 ^ (e % 64) ≠ 0)
    ddcheck true (cur &&& 2 ^ ((e - 1) % 64) = 0)
    b.set (e / 64) (eraseWord cur e)

/-- the part of `erase` that changes the border, grp:576-616, see `Border.erase`; `blen` is `m_border_length`, also in the result -/
def Border.eraseDbg (b : Border) (blen bpg size e : Nat) : Res (Border × Nat) := do
  let n := ceilDiv (size + 1 + bpg) 64
  ddcheck true (n = blen)
  let i := e / 64
  ddcheck true (i < n)
  let cur ← b.get i
  let b ← b.eraseHeadDbg e cur
  let low ← (if i = n - 1 then .ok 0 else do
    let y ← b.get (i + 1)
    return y &&& 1 : Res Nat)
  let cur ← b.get i
  let b ← b.set i (cur ||| ((low <<< 63) % W64))
  let b ← b.shiftDown n (i + 1) (n - (i + 1))
  let n' := ceilDiv (size - 1 + 1 + bpg) 64
  let blen := if n' < n then blen - 1 else blen
  ddcheck true (n' = blen)
  return (if n' < n then { len := n', w := b.w } else b, blen)

/-- `erase(buckets_per_group, groupindex, position, key_width, valuewidth)`, grp:565-635 -/
def GroupDbg.erase (c : GrpCfg) (x : GroupDbg) (bpg g pos qw vw : Nat) : Res GroupDbg := do
  let prev := if g = 0 then 0 else g - 1
  let start ← (if g = 0 then .ok 0 else x.pos c prev : Res Nat)
  let idx := (sub64 start prev + pos) % W64
  let e ← x.pos c g
  ddcheck true ((start + pos) % W64 < e)
  let keys ← x.keys.erase c idx qw x.size
  let vals ← x.vals.erase c idx vw x.size
  let b ← x.getBorder
  let (b, blen) ← b.eraseDbg x.blen bpg x.size e
  let y : GroupDbg := { x with
    size := (x.size + 2 ^ 32 - 1) % 2 ^ 32, keys := keys, vals := vals, border := some b, blen := blen,
    arr := x.arr.mapIdx (fun i a => if g ≤ i then sub64 a 1 else a) }
  y.checkEnds c 0 y.arr.length
  let s ← b.ones 0 0 blen
  ddcheck true (s = x.gs + 1)
  return y

/-- `group_begin` in `read_key`, `read_value`, `write_value`, `read` and `find`, grp:639, 644, 649, 655, 668 -/
def GroupDbg.start (c : GrpCfg) (x : GroupDbg) (g : Nat) : Res Nat :=
  if g = 0 then .ok 0
  else do
    let p ← x.pos c (g - 1)
    return (p + 1) % W64

/-- `read_key(groupindex, position, key_width)`, grp:637-641 -/
def GroupDbg.readKey (c : GrpCfg) (x : GroupDbg) (g pos qw : Nat) : Res Nat := do
  ddcheck true (g < x.gs)
  let s ← x.start c g
  x.keys.read c (sub64 (s + pos) g) qw

/-- `read_value(groupindex, position, valuewidth)`, grp:642-646 -/
def GroupDbg.readValue (c : GrpCfg) (x : GroupDbg) (g pos vw : Nat) : Res Nat := do
  ddcheck true (g < x.gs)
  let s ← x.start c g
  x.vals.read c (sub64 (s + pos) g) vw

/-- `write_value(groupindex, position, value, valuewidth)`, grp:647-651 -/
def GroupDbg.writeValue (c : GrpCfg) (x : GroupDbg) (g pos val vw : Nat) : Res GroupDbg := do
  ddcheck true (g < x.gs)
  let s ← x.start c g
  let vals ← x.vals.write c (sub64 (s + pos) g) val vw
  return { x with vals := vals }

/-- the test of `read(groupindex, position, ...)`, grp:653-659; the rest of this function is `read_key` and `read_value` -/
def GroupDbg.checkPos (c : GrpCfg) (x : GroupDbg) (g pos : Nat) : Res Unit := do
  ddcheck true (g < x.gs)
  let s ← x.start c g
  let e ← x.pos c g
  ddcheck true (pos < sub64 e s)

/-- `find(groupindex, key, key_width)`, grp:666-674 -/
def GroupDbg.find (c : GrpCfg) (x : GroupDbg) (g key qw : Nat) : Res Nat := do
  ddcheck true (g < x.gs)
  let s ← x.start c g
  let e ← x.pos c g
  ddcheck true (s ≤ e)
  if e = s then return NPOS
  let r ← x.keys.find c (sub64 s g) key (sub64 e g) qw
  return if r = NPOS then NPOS else sub64 r (sub64 s g)

/-! ## `group_chaining_table` -/

/-- `m_plainkeys[bucket]`, `m_plainvalues[bucket]` and `m_bucketsizes[bucket]`, grp:742-744 -/
structure PlainRow where
  keys : PlainB
  vals : PlainB
  size : Nat

/-- the arrays of a debug build -/
structure GrpDbg where
  n : Nat
  grp : Nat → GroupDbg
  /-- length of the arrays of copies -/
  cnt : Nat
  row : Nat → PlainRow

/-- Template arguments; `key_type` and `value_type` are `uint64_t` (grp:713-714). -/
structure GrpDbgCfg where
  g : GrpCfg
  /-- `hash_mapping_t(key_width)` -/
  hash : Nat → HashMapping
  /-- the test of `remainder_width`, hash.hpp:57 -/
  remOK : (kw tb : Nat) → Bool

/-- `m_groups[i]` -/
def GrpDbg.get (s : GrpDbg) (i : Nat) : Res GroupDbg := if i < s.n then .ok (s.grp i) else .error .oob

/-- the entries of bucket `b` in the arrays of copies -/
def GrpDbg.getRow (s : GrpDbg) (b : Nat) : Res PlainRow := if b < s.cnt then .ok (s.row b) else .error .oob

/-- the entries of a bucket in the arrays of copies, initially (grp:966-971) and after `clear_bucket` (grp:779-790) -/
def PlainRow.none : PlainRow := ⟨Option.none, Option.none, 0⟩

/-- the loop of `locate(bucket, quotient)`, grp:1136-1145, from `i` on; `n` iterations left -/
def GroupDbg.scan (c : GrpDbgCfg) (x : GroupDbg) (d : Dim) (r : PlainRow) (b q i : Nat) : Nat → Res Nat
  | 0 => .ok NPOS
  | n + 1 => do
    let rq ← x.readKey c.g (b % d.bpg) i d.qw
    let k ← (c.hash d.kw).invMap rq b d.tb
    let pv ← cellRead r.vals i
    let v ← x.readValue c.g (b % d.bpg) i d.vw
    ddcheck true (pv = v)
    let pk ← cellRead r.keys i
    ddcheck true (k = pk)
    if rq = q then return i
    GroupDbg.scan c x d r b q (i + 1) n

/-- the comparison of an entry with its copies: grp:1328-1331, 1346-1349 -/
def GroupDbg.compare (c : GrpDbgCfg) (x : GroupDbg) (d : Dim) (r : PlainRow) (b i : Nat) : Res Unit := do
  let rq ← x.readKey c.g (b % d.bpg) i d.qw
  let k ← (c.hash d.kw).invMap rq b d.tb
  let pk ← cellRead r.keys i
  ddcheck true (k = pk)
  let pv ← cellRead r.vals i
  let v ← x.readValue c.g (b % d.bpg) i d.vw
  ddcheck true (pv = v)

/-- the loop of lines 1345-1350 from `i` on, `n` iterations left -/
def GroupDbg.compareAll (c : GrpDbgCfg) (x : GroupDbg) (d : Dim) (r : PlainRow) (b i : Nat) : Nat → Res Unit
  | 0 => .ok ()
  | n + 1 => do
    x.compare c d r b i
    GroupDbg.compareAll c x d r b (i + 1) n

/-- new room in the copies of a bucket with `bs` entries, grp:1250-1260 -/
def PlainRow.grow (r : PlainRow) (bs : Nat) : Res PlainRow := do
  ddcheck true (r.size = bs)
  if r.size = 0 then do
    ddcheck true (r.keys.isNone = true)
    ddcheck true (r.vals.isNone = true)
    let ks ← plainInitialize 1
    let vs ← plainInitialize 1
    return ⟨ks, vs, (r.size + 1) % 2 ^ 32⟩
  else do
    let ks ← plainResize r.keys (bs + 1)
    let vs ← plainResize r.vals (bs + 1)
    return ⟨ks, vs, (r.size + 1) % 2 ^ 32⟩

/-- the rest of the insertion, grp:1262-1274, into the initialized group `x`; `k` is the key, `bs` the old bucket size -/
def GroupDbg.insert (c : GrpDbgCfg) (x : GroupDbg) (d : Dim) (r : PlainRow) (b q k v bs : Nat) : Res (GroupDbg × PlainRow) := do
  let r ← r.grow bs
  ddcheck true (k ≤ 2 ^ d.kw - 1)
  let ks ← cellWrite r.keys bs k
  let vs ← cellWrite r.vals bs v
  ddcheck true (bs * d.qw / 64 + bs * d.qw % 64 < 64 * ceilDiv ((bs + 1) * d.qw) 64)
  ddcheck true (d.qw ≤ 64)
  let x ← x.push c.g d.bpg (b % d.bpg) q d.qw v d.vw
  let n ← x.bucketsize c.g (b % d.bpg)
  ddcheck true (r.size = n)
  let q' ← x.readKey c.g (b % d.bpg) bs d.qw
  let k' ← (c.hash d.kw).invMap q' b d.tb
  ddcheck true (k' = k)
  let pv ← cellRead vs bs
  let v' ← x.readValue c.g (b % d.bpg) bs d.vw
  ddcheck true (pv = v')
  return (x, ⟨ks, vs, r.size⟩)

/-- replace a group and the copies of a bucket -/
def GrpDbg.set (s : GrpDbg) (j : Nat) (x : GroupDbg) (b : Nat) (r : PlainRow) : GrpDbg :=
  { s with grp := upd s.grp j x, row := upd s.row b r }

/-- `clear(group_i)`, grp:793-806: the copies of all buckets of the group are released -/
def GrpDbg.clearGroup (s : GrpDbg) (d : Dim) (j : Nat) : Res GrpDbg := do
  let x ← s.get j
  ddcheck true (x.gs = d.bpg)
  return { s with
    grp := upd s.grp j x.clear,
    row := fun b => if j * d.bpg ≤ b ∧ b < j * d.bpg + x.gs ∧ b < 2 ^ d.tb then PlainRow.none else s.row b }

/-- The storage functions of a debug build.  `push` obtains the key from the quotient: the caller has tested that `inv_map` gives
the key (grp:1190).  `quotientAt` serves `reserve` (grp:988-1012), with all its comparisons, and `navigator::key` (iterator.hpp:54),
which only calls `quotient_at` (grp:863); the model compares in both cases. -/
def GrpDbgCfg.ops (c : GrpDbgCfg) : StoreOps GrpDbg where
  -- grp:966-974
  alloc d := .ok { n := 2 ^ d.tb / d.bpg + 1, grp := fun _ => GroupDbg.fresh c.g, cnt := 2 ^ d.tb, row := fun _ => PlainRow.none }
  -- grp:933-935
  size s d b := do
    let x ← s.get (b / d.bpg)
    x.bucketsize c.g (b % d.bpg)
  -- grp:1123-1158
  locate s d b q := do
    dbgWidth c.remOK d
    ddcheck true (mostSignificantBit q ≤ (d.qw : Int))
    let x ← s.get (b / d.bpg)
    let bs ← x.bucketsize c.g (b % d.bpg)
    let r ← s.getRow b
    let pp ← x.scan c d r b q 0 bs
    let pos ← (if x.size = 0 then .ok NPOS else x.find c.g (b % d.bpg) q d.qw : Res Nat)
    ddcheck true (pos = pp)
    ddcheck true (pos ≠ NPOS → pos < bs)
    return pos
  -- grp:1208
  full s d b := do
    let x ← s.get (b / d.bpg)
    return x.size == 255
  -- grp:1192-1193, 1224-1274
  push s d b q v := do
    let x ← s.get (b / d.bpg)
    let bs ← x.bucketsize c.g (b % d.bpg)
    let k ← (c.hash d.kw).invMap q b d.tb
    let r ← s.getRow b
    dbgWidth c.remOK d
    let x ← (if x.border.isNone then x.init c.g d.bpg d.qw d.vw else .ok x : Res GroupDbg)
    let (x, r) ← x.insert c d r b q k v bs
    return s.set (b / d.bpg) x b r
  quotientAt s d b i := do
    dbgWidth c.remOK d
    let x ← s.get (b / d.bpg)
    ddcheck true (x.gs = d.bpg)
    let bs ← x.bucketsize c.g (b % d.bpg)
    ddcheck true (b < 2 ^ d.tb)
    let r ← s.getRow b
    ddcheck true (bs = r.size)
    x.checkPos c.g (b % d.bpg) i
    x.compare c d r b i
    x.readKey c.g (b % d.bpg) i d.qw
  -- grp:870-876
  valueAt s d b i := do
    ddcheck true (b < 2 ^ d.tb)
    let x ← s.get (b / d.bpg)
    x.readValue c.g (b % d.bpg) i d.vw
  -- grp:877-887
  writeValue s d b i v := do
    ddcheck true (b < 2 ^ d.tb)
    ddcheck true (v ≤ 2 ^ d.vw - 1)
    let r ← s.getRow b
    let vs ← cellWrite r.vals i v
    let x ← s.get (b / d.bpg)
    let x ← x.writeValue c.g (b % d.bpg) i v d.vw
    return s.set (b / d.bpg) x b { r with vals := vs }
  -- grp:1313-1362
  eraseAt s d b i := do
    ddcheck true (b < 2 ^ d.tb)
    let r ← s.getRow b
    ddcheck true (i < r.size)
    let x ← s.get (b / d.bpg)
    dbgWidth c.remOK d
    x.compare c d r b i
    let ks ← plainErase r.keys i r.size
    let vs ← plainErase r.vals i r.size
    ddcheck true (0 < r.size)
    let r : PlainRow := ⟨ks, vs, r.size - 1⟩
    let x ← x.erase c.g d.bpg (b % d.bpg) i d.qw d.vw
    let n ← x.bucketsize c.g (b % d.bpg)
    ddcheck true (r.size = n)
    x.compareAll c d r b 0 r.size
    let s := s.set (b / d.bpg) x b r
    let s ← (if x.size = 0 then s.clearGroup d (b / d.bpg) else .ok s : Res GrpDbg)
    let r ← s.getRow b
    return if r.size = 0 then { s with row := upd s.row b PlainRow.none } else s
  -- grp:1279
  shrink s _ _ := .ok s

end SC
