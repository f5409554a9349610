import Verif.Sep.Memory
import Verif.Sep.Capacity
/-! # `size_in_bytes()` of `separate_chaining_table` -/
namespace SC
variable {KB VB O : Type}

/-- The sizes of the types involved, in bytes. -/
structure Sizeof where
  /-- `sizeof(key_type)` -/
  key : Nat
  /-- `m_value_manager.value_width()`: `sizeof(value_type)` for a map (sep:113-115), 0 for a set (sep:71-73) -/
  value : Nat
  /-- `sizeof(m_resize_strategy)`: the class `incremental_resize` is empty, `arbitrary_resize` has a pointer -/
  strategy : Nat
  /-- `sizeof(m_keys) + sizeof(m_value_manager) + ... + sizeof(m_hash)` (sep:781) -/
  members : Nat
  /-- bytes of a bucket in the array of value buckets: a pointer, or 0 for a set, which has no such array -/
  valueBucket : Nat

/-- bits for the capacity of a bucket: one byte in the array of `arbitrary_resize` (size.hpp:40), nothing for `incremental_resize` -/
def Strategy.capBits : Strategy → Nat
  | .incremental => 0
  | .arbitrary => 8

/-- The bits used by a table: the members, the arrays of key buckets (pointers), value buckets, sizes (one byte each) and capacities, and the
blocks of the buckets (`kbits` and `vbits`). -/
def SepCfg.usedBits (p : SepCfg KB VB) (kbits : KB → Nat) (vbits : VB → Nat) (z : Sizeof) (t : Tab (SepStore KB VB) O) : Nat :=
  8 * z.members + 8 * z.strategy + t.bucketCount * (64 + 8 * z.valueBucket + 8 + p.strat.capBits) +
    ((List.range t.bucketCount).map (fun b => kbits (t.store.bkt b).keys + vbits (t.store.bkt b).vals)).sum

/-- The sizes for a table with `keyBits` bits for `key_type` and `valueBits` for `value_type` (0: a set). -/
structure Sizeof.For (z : Sizeof) (strat : Strategy) (keyBits valueBits : Nat) : Prop where
  key : 8 * z.key = keyBits
  value : 8 * z.value = valueBits
  strategy : z.strategy = (match strat with | .incremental => 1 | .arbitrary => 8)
  bucket : z.valueBucket = if valueBits = 0 then 0 else 8

/-- `size_in_bytes()`, sep:774-788, with `dummy_overflow`, whose `size_in_bytes()` is 0 (overflow.hpp:38).  Sums of type
`size_t` are reduced once, at the end. -/
def SepCfg.sizeInBytes (_p : SepCfg KB VB) (g : Cfg (SepStore KB VB) O) (z : Sizeof) (t : Tab (SepStore KB VB) O) : Res Nat := do
  let w := (t.dim g).qw
  ddcheck g.debug (0 < w)
  ddcheck g.debug (w ≤ t.kw)
  let bytes ← (List.range t.bucketCount).foldlM (fun bytes b => do
    let x ← t.store.get b
    return bytes + ceilDiv (x.size * w) (z.key * 8) * z.key + z.value * x.size) (z.strategy * t.bucketCount + z.members)
  return bytes % W64

theorem size_fold {s : SepStore KB VB} {f : Nat → Nat → Nat} : ∀ {bs : List Nat} {a : Nat}, (∀ b ∈ bs, b < s.n) →
    bs.foldlM (fun a b => do
      let x ← s.get b
      return a + f x.size b) a = (.ok (a + (bs.map (fun b => f (s.bkt b).size b)).sum) : Res Nat) := by
  intro bs
  induction bs with
  | nil => intro a _; rfl
  | cons b bs ih =>
    intro a h
    have : s.get b = .ok (s.bkt b) := by unfold SepStore.get; rw [if_pos (h b (by simp))]
    rw [List.foldlM_cons]
    simp only [this, ok_bind, pure_eq_ok]
    refine Eq.trans (ih (fun b hb => h b (by simp [hb]))) ?_
    simp [Nat.add_assoc]

theorem sum_map_le {f g : Nat → Nat} : ∀ {l : List Nat}, (∀ b ∈ l, f b ≤ g b) → (l.map f).sum ≤ (l.map g).sum := by
  intro l
  induction l with
  | nil => intro _; simp
  | cons b l ih =>
    intro h
    have h1 := h b (by simp)
    have h2 := ih (fun b hb => h b (by simp [hb]))
    simp only [List.map_cons, List.sum_cons]; omega

theorem sum_map_add_const {f : Nat → Nat} {k : Nat} : ∀ {l : List Nat}, (l.map (fun b => k + f b)).sum = l.length * k + (l.map f).sum := by
  intro l
  induction l with
  | nil => simp
  | cons b l ih => simp only [List.map_cons, List.sum_cons, ih, List.length_cons, Nat.succ_mul]; omega

theorem sum_map_mul {f : Nat → Nat} {k : Nat} : ∀ {l : List Nat}, (l.map (fun b => k * f b)).sum = k * (l.map f).sum := by
  intro l
  induction l with
  | nil => simp
  | cons b l ih => simp only [List.map_cons, List.sum_cons, ih, Nat.mul_add]

/-- the value of `size_in_bytes()` -/
theorem sizeInBytes_eq {p : SepCfg KB VB} {g : Cfg (SepStore KB VB) O} (hd : g.debug = false) {z : Sizeof} {t : Tab (SepStore KB VB) O}
    (hn : t.bucketCount ≤ t.store.n) : p.sizeInBytes g z t = .ok ((z.strategy * t.bucketCount + z.members +
      ((List.range t.bucketCount).map (fun b => ceilDiv ((t.store.bkt b).size * (t.dim g).qw) (z.key * 8) * z.key +
        z.value * (t.store.bkt b).size)).sum) % W64) := by
  unfold SepCfg.sizeInBytes
  rw [hd]
  simp only [ddcheck_off, ok_bind, Nat.add_assoc]
  rw [size_fold (s := t.store) (f := fun n _ => ceilDiv (n * (t.dim g).qw) (z.key * 8) * z.key + z.value * n)
    (fun b hb => Nat.lt_of_lt_of_le (List.mem_range.mp hb) hn)]
  simp [Nat.add_assoc]

end SC
