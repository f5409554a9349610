import Verif.Compact.Table
/-!
# The reference-like object that `compact_chaining_map::operator[]` returns

Model of `value_wrapper`, compact_chaining_map.hpp:26-66 (`cmp` below).
-/
namespace SC

/-- the members `m_bucket` and `m_position` of `value_wrapper`, cmp:34-36; `m_map` is the table that the functions below get -/
structure Wrapper where
  bucket : Nat
  pos : Nat
deriving DecidableEq, Repr

/-- `value_wrapper(navigator&&)`, cmp:39-43: the position is narrowed to `bucketsize_type`, that is `uint8_t` (cmp:85, size.hpp:5) -/
def Wrapper.ofNav (n : Nav) : Wrapper := ⟨n.bucket, n.pos % 256⟩

/-- `operator[](key)`, cmp:618-620 -/
def wrapperOf (c : VarCfg) (hk : HashKind) (t : Tab CmpStore Unit) (k : Nat) : Res (Tab CmpStore Unit × Wrapper) := do
  let (t, n) ← t.insert (cmpMap c hk) k 0
  return (t, Wrapper.ofNav n)

/-- `operator=(value)`, cmp:54-57, calls `write_value(bucket, position, value)`, cmp:465-475 -/
def Wrapper.assign (c : VarCfg) (hk : HashKind) (w : Wrapper) (t : Tab CmpStore Unit) (v : Nat) : Res (Tab CmpStore Unit) := do
  let s ← (cmpOps c).writeValue t.store (t.dim (cmpMap c hk)) w.bucket w.pos v
  return { t with store := s }

/-- `operator size_t()`, cmp:58-60, calls `value_at(bucket, position)`, cmp:438-449 -/
def Wrapper.read (c : VarCfg) (hk : HashKind) (w : Wrapper) (t : Tab CmpStore Unit) : Res Nat :=
  (cmpOps c).valueAt t.store (t.dim (cmpMap c hk)) w.bucket w.pos

/-- `operator==(other)`, cmp:61-64; `other` is converted to `size_t` -/
def Wrapper.eq (c : VarCfg) (hk : HashKind) (w : Wrapper) (t : Tab CmpStore Unit) (y : Nat) : Res Bool := do
  let x ← w.read c hk t
  return x == y % 2 ^ 64

end SC
