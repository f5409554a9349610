import Verif.Bucket.VarwidthLemmas
/-!
# The buckets of a debug build

Without `NDEBUG` the buckets of bucket.hpp have additional members (`ON_DEBUG`) and execute assertions.  A debug bucket
is a bucket of the release build together with these members; `dbgOps` adds the assertions to the functions of the
release build.  (The assertion inside of `avx2_bucket::find` is part of `avxFindLoop`.)
-/
namespace SC

/-- a bucket of a debug build -/
structure DbgB (B : Type) where
  /-- `m_data` -/
  data : B
  /-- `m_length`, bucket.hpp:71, 195, 372 -/
  len : Nat
  /-- `m_size`, bucket.hpp:371 (`varwidth_bucket` only) -/
  size : Nat

/-- A bucket class and the assertions it contains. -/
structure DbgCfg (B : Type) where
  /-- the functions of the release build -/
  ops : BucketOps B
  /-- `m_data == nullptr` -/
  isNull : B → Bool
  /-- value of the members `m_length` and `m_size` of a default constructed bucket (they are not initialised) -/
  junk : Nat
  /-- does `clear()` reset `m_length`? (`class_bucket::clear`, bucket.hpp:316-321, does not) -/
  resets : Bool
  /-- `resize` demands `oldsize <= size`, bucket.hpp:17 -/
  grows : Bool
  /-- `resize` demands `m_data != nullptr`, bucket.hpp:26, 336 -/
  wantsData : Bool
  /-- bits of a block of `varwidth_bucket`; `none` for the other classes -/
  block : Option Nat

/-- the value of `m_size` for `n` entries of `w` bits -/
def DbgCfg.blocks {B : Type} (c : DbgCfg B) (n w : Nat) : Nat := match c.block with
  | some sb => ceilDiv (n * w) sb
  | none => 0

/-- The functions of a bucket class in a debug build:
`plain_bucket`, bucket.hpp:191-283; `class_bucket`, 309-340; `avx2_bucket`, 67-160; `varwidth_bucket`, 366-487.
The test `m_data == nullptr` in `initialize` (bucket.hpp:90, 241, 326, 415) concerns the old bucket, which
`BucketOps.init` does not see; the callers execute it. -/
def dbgOps {B : Type} (c : DbgCfg B) : BucketOps (DbgB B) where
  empty := ⟨c.ops.empty, c.junk, c.junk⟩
  -- 81, 226, 403-404
  clear := fun b => ⟨c.ops.clear b.data, if c.resets then 0 else b.len, 0⟩
  -- 92, 243, 328, 417-418
  init := fun len w => do
    let d ← c.ops.init len w
    return ⟨d, len, c.blocks len w⟩
  -- 17-28, 116-120; 253-256; 331-340; 421-427
  resize := fun b old new w => do
    ddcheck true (c.grows = true → old ≤ new)
    let d ← c.ops.resize b.data old new w
    ddcheck true (c.wantsData = true → c.isNull b.data = false)
    return ⟨d, new, c.blocks new w⟩
  -- 122-125; 263-266; 453-460
  write := fun b i x w => do
    ddcheck true (i < b.len)
    match c.block with
    | some _ =>
      ddcheck true (mostSignificantBit x ≤ (w : Int))
      let d ← c.ops.write b.data i x w
      let y ← c.ops.read d i w
      ddcheck true (y = x)
      return { b with data := d }
    | none =>
      let d ← c.ops.write b.data i x w
      return { b with data := d }
  -- 126-129; 274-277; 462-466
  read := fun b i w => do
    ddcheck true (i < b.len)
    c.ops.read b.data i w
  -- 139-160; 278-283; 468-487
  find := fun b key len w => do
    match c.block with
    | some sb =>
      ddcheck true (len ≤ b.len)
      ddcheck true (len * w ≤ b.size * sb)
      c.ops.find b.data key len w
    | none => c.ops.find b.data key len w
  -- 131-137; 267-273; 430-451
  erase := fun b pos len w => do
    ddcheck true (len ≤ b.len)
    ddcheck true (pos < b.len)
    let d ← c.ops.erase b.data pos len w
    return { b with data := d }
  -- 104-108; 208-212; 388-396: the debug members are written first
  serialize := fun b len w => do
    match c.block with
    | some sb =>
      ddcheck true (len ≤ b.len)
      ddcheck true (ceilDiv (len * w) sb ≤ b.size)
      let s ← c.ops.serialize b.data len w
      return toBytes 8 b.size ++ toBytes 8 b.len ++ s
    | none =>
      ddcheck true (len ≤ b.len)
      let s ← c.ops.serialize b.data len w
      return toBytes 8 b.len ++ s
  -- 98-103; 202-207 (`initialize` sets `m_length` again); 379-387
  deserialize := fun len w s => do
    match c.block with
    | some sb =>
      let (x, s) ← takeBytes 8 s
      let (y, s) ← takeBytes 8 s
      ddcheck true (len ≤ ofBytes y)
      ddcheck true (ceilDiv (len * w) sb ≤ ofBytes x)
      let (d, s) ← c.ops.deserialize len w s
      return (⟨d, ofBytes y, ofBytes x⟩, s)
    | none =>
      let (y, s) ← takeBytes 8 s
      ddcheck true (len ≤ ofBytes y)
      let (d, s) ← c.ops.deserialize len w s
      return (⟨d, len, 0⟩, s)

/-- `plain_bucket<storage_t>` -/
def dbgPlain (sbits junk : Nat) : DbgCfg PlainB where
  ops := plainOps sbits
  isNull := Option.isNone
  junk := junk
  resets := true
  grows := false
  wantsData := false
  block := none

/-- `class_bucket<storage_t>` -/
def dbgClass (sbits junk : Nat) : DbgCfg PlainB where
  ops := classOps sbits
  isNull := Option.isNone
  junk := junk
  resets := false
  grows := false
  wantsData := true
  block := none

/-- `avx2_bucket<storage_t>` -/
def dbgAvx (sbits junk : Nat) : DbgCfg PlainB where
  ops := avxOps sbits true
  isNull := Option.isNone
  junk := junk
  resets := true
  grows := true
  wantsData := true
  block := none

/-- `varwidth_bucket<internal_t>` -/
def dbgVar (v : VarCfg) (junk : Nat) : DbgCfg VarB where
  ops := varOps v
  isNull := Option.isNone
  junk := junk
  resets := true
  grows := false
  wantsData := false
  block := some v.sb

/-! ## The debug buckets obey the laws -/

/-- contents of a debug bucket; the debug members do not promise less than there is (and `size_t` is large enough for them) -/
def DbgRep {B : Type} (c : DbgCfg B) (Rep : B → Nat → Nat → List Nat → Prop) (b : DbgB B) (w cap : Nat)
    (xs : List Nat) : Prop :=
  Rep b.data w cap xs ∧ cap ≤ b.len ∧ (∀ sb, c.block = some sb → cap * w ≤ b.size * sb) ∧
    (cap ≤ 255 → b.len < 2 ^ 64 ∧ b.size < 2 ^ 64)

theorem msb_le_of_lt {x w : Nat} (h : x < 2 ^ w) : mostSignificantBit x ≤ (w : Int) := by
  unfold mostSignificantBit
  split
  · omega
  · have : Nat.log2 x < w := (Nat.log2_lt (by omega)).mpr h
    omega

variable {B : Type} {c : DbgCfg B} {norm : Nat → Nat → Nat} {Rep : B → Nat → Nat → List Nat → Prop} {spare : Bool}

/-- what is needed of a class besides the laws of the release build -/
structure DbgOK (c : DbgCfg B) (norm : Nat → Nat → Nat) (Rep : B → Nat → Nat → List Nat → Prop) : Prop where
  data : c.wantsData = true → ∀ b w cap xs, Rep b w cap xs → c.isNull b = false
  block : ∀ sb, c.block = some sb → 0 < sb ∧ norm = fun w x => x % 2 ^ w
  null_empty : c.isNull c.ops.empty = true
  null_clear : ∀ b, c.isNull (c.ops.clear b) = true

theorem dbg_block_ge (hc : DbgOK c norm Rep) (n w w' : Nat) (h : w' ≤ w) (sb : Nat) (hb : c.block = some sb) :
    n * w' ≤ c.blocks n w * sb := by
  unfold DbgCfg.blocks
  rw [hb]
  have := ceilDiv_mul_ge (n * w) (hc.block sb hb).1
  show n * w' ≤ ceilDiv (n * w) sb * sb
  rw [Nat.mul_comm (ceilDiv _ _)]
  exact Nat.le_trans (Nat.mul_le_mul_left _ h) this

theorem dbg_small (hc : DbgOK c norm Rep) {n w : Nat} (h : n ≤ 255) (hw : w ≤ 64) : n < 2 ^ 64 ∧ c.blocks n w < 2 ^ 64 := by
  have h64 : (255 * 64 : Nat) < 2 ^ 64 := by decide
  refine ⟨by omega, ?_⟩
  unfold DbgCfg.blocks
  cases hb : c.block with
  | none => exact Nat.two_pow_pos 64
  | some sb =>
    have hp := (hc.block sb hb).1
    have h1 : n * w ≤ 255 * 64 := Nat.mul_le_mul h hw
    have h2 : ceilDiv (n * w) sb ≤ n * w := by
      unfold ceilDiv
      rw [Nat.div_le_iff_le_mul_add_pred hp]
      have : n * w ≤ sb * (n * w) := Nat.le_mul_of_pos_left _ hp
      omega
    show ceilDiv (n * w) sb < 2 ^ 64
    omega

theorem dbgWrite (hc : DbgOK c norm Rep) {b : DbgB B} {d : B} {i x w : Nat} (hi : i < b.len)
    (hok : c.block.isSome = true → x < 2 ^ w) (h1 : c.ops.write b.data i x w = .ok d)
    (h2 : c.ops.read d i w = .ok (norm w x)) : (dbgOps c).write b i x w = .ok { b with data := d } := by
  cases hb : c.block with
  | none => simp only [dbgOps, ddcheck_ok hi, hb, h1, ok_bind, pure_eq_ok]
  | some sb =>
    have hx := hok (by rw [hb]; rfl)
    have e : norm w x = x := by rw [(hc.block sb hb).2]; exact Nat.mod_eq_of_lt hx
    rw [e] at h2
    simp only [dbgOps, ddcheck_ok hi, hb, ddcheck_ok (msb_le_of_lt hx), h1, h2, ddcheck_ok, ok_bind, pure_eq_ok]

/-- The functions of a debug build do what those of the release build do, if values fit into the width with which they
are stored (only `varwidth_bucket` minds). -/
theorem lawful_dbg (L : LawfulCore c.ops norm Rep spare) (hc : DbgOK c norm Rep) :
    LawfulCore (dbgOps c) norm (DbgRep c Rep) spare (fun w x => c.block.isSome = true → x < 2 ^ w) where
  init := by
    intro len w w' h1 h2 h3
    obtain ⟨d, e1, e2⟩ := L.init len w w' h1 h2 h3
    exact ⟨⟨d, len, c.blocks len w⟩, by simp only [dbgOps, e1, ok_bind, pure_eq_ok], e2, Nat.le_refl _, dbg_block_ge hc len w w' h2,
      fun h => dbg_small hc h h3⟩
  resize := by
    intro b w cap xs new h1 h2 ⟨hr, hl, hs⟩ hn hp
    obtain ⟨d, e1, e2⟩ := L.resize _ w cap xs new h1 h2 hr hn hp
    exact ⟨⟨d, new, c.blocks new w⟩, by
      simp only [dbgOps, ddcheck_ok (fun _ => hn), e1, ddcheck_ok (fun h => hc.data h _ _ _ _ hr), ok_bind, pure_eq_ok],
      e2, Nat.le_refl _, dbg_block_ge hc new w w (Nat.le_refl _), fun h => dbg_small hc h h2⟩
  write_new := by
    intro b w cap xs x h1 h2 ⟨hr, hl, hs⟩ hcap hok
    obtain ⟨d, e1, e2⟩ := L.write_new _ w cap xs x h1 h2 hr hcap trivial
    have e3 := L.read d w cap _ xs.length h1 h2 e2 (by simp)
    exact ⟨_, dbgWrite hc (by omega) hok e1 (by rw [e3]; simp), e2, hl, hs⟩
  write_old := by
    intro b w cap xs x i h1 h2 ⟨hr, hl, hs⟩ hi hok
    obtain ⟨d, e1, e2⟩ := L.write_old _ w cap xs x i h1 h2 hr hi trivial
    have e3 := L.read d w cap _ i h1 h2 e2 (by simpa using hi)
    have := L.cap_ge _ _ _ _ hr
    exact ⟨_, dbgWrite hc (by omega) hok e1 (by rw [e3]; simp), e2, hl, hs⟩
  read := by
    intro b w cap xs i h1 h2 ⟨hr, hl, hs⟩ hi
    have := L.cap_ge _ _ _ _ hr
    simp only [dbgOps, ddcheck_ok (show i < b.len by omega), ok_bind]
    exact L.read _ w cap xs i h1 h2 hr hi
  erase := by
    intro b w cap xs p h1 h2 ⟨hr, hl, hs⟩ hp hsp
    obtain ⟨d, e1, e2⟩ := L.erase _ w cap xs p h1 h2 hr hp hsp
    have := L.cap_ge _ _ _ _ hr
    exact ⟨{ b with data := d }, by
      simp only [dbgOps, ddcheck_ok (show xs.length ≤ b.len by omega), ddcheck_ok (show p < b.len by omega), e1, ok_bind,
        pure_eq_ok], e2, hl, hs⟩
  cap_ge := fun b w cap xs h => L.cap_ge _ _ _ _ h.1

theorem lawful_dbg_find (L : LawfulCore c.ops norm Rep spare) (F : LawfulFind c.ops norm Rep) :
    LawfulFind (dbgOps c) norm (DbgRep c Rep) where
  find := by
    intro b w cap xs x h1 h2 ⟨hr, hl, hs⟩ hx
    have := L.cap_ge _ _ _ _ hr
    have hf := F.find _ w cap xs x h1 h2 hr hx
    cases hb : c.block with
    | none => simp only [dbgOps, hb, hf]
    | some sb =>
      have := hs.1 sb hb
      have : xs.length * w ≤ cap * w := Nat.mul_le_mul_right _ (by omega)
      simp only [dbgOps, hb, ddcheck_ok (show xs.length ≤ b.len by omega),
        ddcheck_ok (show xs.length * w ≤ b.size * sb by omega), ok_bind, hf]
  find_empty := by
    intro b w x
    cases hb : c.block with
    | none => simp only [dbgOps, hb]; exact F.find_empty _ _ _
    | some sb =>
      simp only [dbgOps, hb, ddcheck_ok (Nat.zero_le b.len), ddcheck_ok (show 0 * w ≤ b.size * sb by omega), ok_bind]
      exact F.find_empty _ _ _

theorem plainRep_data {s w cap : Nat} {b : PlainB} {xs : List Nat} (h : PlainRep s b w cap xs) : b.isNone = false := by
  obtain ⟨_, rfl, _⟩ := h; rfl

theorem dbgPlain_ok (s j : Nat) : DbgOK (dbgPlain s j) (fun _ x => x % 2 ^ s) (PlainRep s) where
  data := fun _ _ _ _ _ h => plainRep_data h
  block := fun _ h => by cases h
  null_empty := rfl
  null_clear := fun _ => rfl

theorem dbgClass_ok (s j : Nat) : DbgOK (dbgClass s j) (fun _ x => x % 2 ^ s) (PlainRep s) where
  data := fun _ _ _ _ _ h => plainRep_data h
  block := fun _ h => by cases h
  null_empty := rfl
  null_clear := fun _ => rfl

theorem dbgAvx_ok (s j : Nat) : DbgOK (dbgAvx s j) (fun _ x => x % 2 ^ s) (PlainRep s) where
  data := fun _ _ _ _ _ h => plainRep_data h
  block := fun _ h => by cases h
  null_empty := rfl
  null_clear := fun _ => rfl

theorem dbgVar_ok {v : VarCfg} (hv : v.good) (j : Nat) : DbgOK (dbgVar v j) (fun w x => x % 2 ^ w) (VarRep v) where
  data := fun h => by cases h
  block := fun sb h => ⟨by cases h; exact hv.pos, rfl⟩
  null_empty := rfl
  null_clear := fun _ => rfl

end SC
