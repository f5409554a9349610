import Verif.Bucket.VarwidthLemmas
import Verif.Bucket.Run
import Verif.Bucket.Size
/-!
# Properties of buckets: C07 - C14
-/
namespace SC
open Spec

/-- the block types of `varwidth_bucket` -/
def IsBlock (sb : Nat) : Prop := sb = 8 ∨ sb = 16 ∨ sb = 32 ∨ sb = 64

theorem good_flat {sb : Nat} (h : IsBlock sb) (junk : Bits) : VarCfg.good ⟨sb, false, junk⟩ := ⟨h, Or.inl rfl⟩

/-- The bucket `b` holds the entries `xs` of width `w`: this is what `read` shows. -/
def Holds {B : Type} (ops : BucketOps B) (b : B) (w : Nat) (xs : List Nat) : Prop :=
  ∀ i (h : i < xs.length), ops.read b i w = .ok xs[i]

/-! ## C07 -/

/-- **C07**: `write(i, x)` followed by `read(i)` gives `x` reduced to the entry width; every other entry and every
bit outside of the written entry is unchanged. -/
theorem C07_varwidth_write_read (sb : Nat) (hsb : IsBlock sb) (junk : Bits) (m : Buf) (w : Nat) (hw : 1 ≤ w) (_hw64 : w ≤ 64)
    (i x : Nat) (hd : sb ∣ m.alloc) (hroom : (i + 1) * w ≤ m.alloc) :
    ∃ m', varWrite ⟨sb, false, junk⟩ (some m) i x w = .ok (some m') ∧
      varRead ⟨sb, false, junk⟩ (some m') i w = .ok (x % 2 ^ w) ∧
      (∀ j, j ≠ i → varRead ⟨sb, false, junk⟩ (some m') j w = varRead ⟨sb, false, junk⟩ (some m) j w) ∧
      (∀ p, (p < i * w ∨ (i + 1) * w ≤ p) → m'.bits p = m.bits p) ∧ m'.alloc = m.alloc := by
  have hc := good_flat hsb junk
  have hr : i * w + w ≤ m.alloc := by rw [Nat.succ_mul] at hroom; exact hroom
  refine ⟨{ m with bits := writeBits m.bits (i * w) w x }, varWrite_eq hc hd hw hr, ?_, ?_, ?_, rfl⟩
  · have e := varRead_eq hc (m := { m with bits := writeBits m.bits (i * w) w x }) hd hw hr
    rw [e, readBits_write_same]
  · intro j hj
    have key : ∀ m : Buf, varRead ⟨sb, false, junk⟩ (some m) j w = .ok (readBits m.bits (j * w) w) := by
      intro m
      simp only [varRead, deref, ok_bind]
      rw [readInt_ok (Or.inl rfl), pos_split]
    rw [key, key, readBits_write_disjoint _ (entry_disjoint hj)]
  · intro p hp
    rw [Nat.succ_mul] at hp
    simp only [writeBits]
    rw [if_neg (by omega)]

example : ∃ m', varWrite ⟨8, false, fun _ => true⟩ (some ⟨16, fun i => i % 2 == 0⟩) 1 2000 5 = .ok (some m') ∧
    varRead ⟨8, false, fun _ => true⟩ (some m') 1 5 = .ok (2000 % 2 ^ 5) :=
  let ⟨m', h1, h2, _⟩ := C07_varwidth_write_read 8 (by simp [IsBlock]) (fun _ => true) ⟨16, fun i => i % 2 == 0⟩ 5
    (by decide) (by decide) 1 2000 (by decide) (by decide)
  ⟨m', h1, h2⟩

theorem holds_rep {sb : Nat} (hsb : IsBlock sb) {junk : Bits} {m : Buf} {w : Nat} (hw : 1 ≤ w) {xs : List Nat}
    (hd : sb ∣ m.alloc) (hroom : xs.length * w ≤ m.alloc) (hx : Holds (varOps ⟨sb, false, junk⟩) (some m) w xs) :
    VarRep ⟨sb, false, junk⟩ (some m) w xs.length xs := by
  refine ⟨m, rfl, hd, hroom, Nat.le_refl _, ?_⟩
  intro i hi
  have h1 : varRead ⟨sb, false, junk⟩ (some m) i w = .ok xs[i] := hx i hi
  rw [varRead_eq (good_flat hsb junk) hd hw (Nat.le_trans (idx_end hi) hroom)] at h1
  exact Except.ok.inj h1

/-! ## C08 -/

/-- **C08**: `erase(p)` on a bucket that holds `xs` leaves `xs` without its `p`-th entry. -/
theorem C08_varwidth_erase (sb : Nat) (hsb : IsBlock sb) (junk : Bits) (m : Buf) (w : Nat) (hw : 1 ≤ w) (_hw64 : w ≤ 64)
    (xs : List Nat) (p : Nat) (hp : p < xs.length) (hd : sb ∣ m.alloc) (hroom : xs.length * w ≤ m.alloc)
    (hx : Holds (varOps ⟨sb, false, junk⟩) (some m) w xs) :
    ∃ b', (varOps ⟨sb, false, junk⟩).erase (some m) p xs.length w = .ok b' ∧
      Holds (varOps ⟨sb, false, junk⟩) b' w (xs.take p ++ xs.drop (p + 1)) := by
  have hc := good_flat hsb junk
  have hrep := holds_rep hsb hw hd hroom hx
  obtain ⟨b', h1, h2⟩ := varErase_rep hc hw hrep hp (Or.inl rfl)
  refine ⟨b', h1, ?_⟩
  rw [← List.eraseIdx_eq_take_drop_succ]
  intro i hi
  exact (lawful_var hc rfl).read b' w xs.length _ i hw _hw64 h2 hi

/-- a bucket with three 5-bit entries -/
def exBuf : Buf := ⟨16, fun i => [true, false, true, false, false, true, true, true, true, true, false, true, false, false, true].getD i false⟩

example : Holds (varOps ⟨8, false, fun _ => true⟩) (some exBuf) 5 [5, 31, 18] := by
  intro i hi
  match i, hi with
  | 0, _ => rfl
  | 1, _ => rfl
  | 2, _ => rfl

/-! ## C09 -/

/-- **C09**: `resize(n, m)` on a bucket holding `n` entries keeps them and afterwards there is room for `m`
entries: all of them can be written and read back without touching each other.
The allocation may be of any size (multiple of the block size) with room for the `n` entries. -/
theorem C09_varwidth_resize (sb : Nat) (hsb : IsBlock sb) (junk : Bits) (m : Buf) (w : Nat) (hw : 1 ≤ w) (hw64 : w ≤ 64)
    (xs : List Nat) (new : Nat) (hnew : xs.length ≤ new) (hpos : 0 < new) (hd : sb ∣ m.alloc)
    (hroom : xs.length * w ≤ m.alloc) (hx : Holds (varOps ⟨sb, false, junk⟩) (some m) w xs) :
    ∃ m', (varOps ⟨sb, false, junk⟩).resize (some m) xs.length new w = .ok (some m') ∧
      Holds (varOps ⟨sb, false, junk⟩) (some m') w xs ∧ new * w ≤ m'.alloc ∧ sb ∣ m'.alloc := by
  have hc := good_flat hsb junk
  have hrep := holds_rep hsb hw hd hroom hx
  obtain ⟨b', h1, h2⟩ := (lawful_var hc rfl).resize _ w _ _ new hw hw64 hrep hnew hpos
  obtain ⟨m', rfl, e1, e2, e3, e4⟩ := id h2
  exact ⟨m', h1, fun i hi => (lawful_var hc rfl).read _ w _ _ i hw hw64 h2 hi, e2, e1⟩

/-- **C09** (initialisation): a bucket initialised for `n` entries of width `w0` has room for `n` entries of every
smaller width. -/
theorem C09_varwidth_init (sb : Nat) (hsb : IsBlock sb) (junk : Bits) (n w0 w : Nat) (h : w ≤ w0) :
    ∃ m, (varOps ⟨sb, false, junk⟩).init n w0 = .ok (some m) ∧ n * w ≤ m.alloc ∧ sb ∣ m.alloc :=
  ⟨_, rfl, Nat.le_trans (Nat.mul_le_mul_left _ h) (varBits_ge n w0 (good_flat hsb junk).pos), Nat.dvd_mul_right _ _⟩

example : Holds (varOps ⟨8, false, fun _ => true⟩) (some exBuf) 5 [5, 31, 18] ∧ (8 : Nat) ∣ exBuf.alloc ∧ 3 * 5 ≤ exBuf.alloc :=
  ⟨fun i hi => match i, hi with
    | 0, _ => rfl
    | 1, _ => rfl
    | 2, _ => rfl, by decide, by decide⟩

/-- **C09** (histories): a variable-width bucket driven by any sequence of calls gives the answers of an array of
`w`-bit entries. -/
theorem C09_varwidth_history (sb : Nat) (hsb : IsBlock sb) (junk : Bits) (w : Nat) (hw : 1 ≤ w) (hw64 : w ≤ 64) (n0 : Nat)
    (cmds : List ArrOp) (outs : List Nat) (h : Arr.run w false ⟨[], n0⟩ cmds = some outs) :
    bucketSession (varOps ⟨sb, false, junk⟩) w n0 cmds = .ok outs :=
  bucketSession_refines (lawful_var (good_flat hsb junk) rfl) (lawful_var_find (good_flat hsb junk)) hw hw64
    (fun _ => rfl) n0 cmds outs h

/-- a sample session -/
def exCmds : List ArrOp := [.push 300, .grow 4, .push 7, .push 9, .set 0 7, .find 7, .find 9, .erase 0, .find 9, .get 0, .find 5]

example : Arr.run 5 false ⟨[], 1⟩ exCmds = some [0, 0, 0, 0, 0, 0, 2, 0, 1, 7, 2 ^ 64 - 1] := by decide

/-! ## C10 -/

/-- **C10**: `find(x)` returns the smallest index holding `x`, or -1; the bits behind the entries are arbitrary
(`m` is any memory in which the entries read as `xs`). -/
theorem C10_varwidth_find (sb : Nat) (hsb : IsBlock sb) (junk : Bits) (m : Buf) (w : Nat) (hw : 1 ≤ w) (hw64 : w ≤ 64)
    (xs : List Nat) (hd : sb ∣ m.alloc) (hroom : xs.length * w ≤ m.alloc)
    (hx : Holds (varOps ⟨sb, false, junk⟩) (some m) w xs) (key : Nat) :
    ∃ r, (varOps ⟨sb, false, junk⟩).find (some m) key xs.length w = .ok r ∧ IsFirstMatch xs key r := by
  have hc := good_flat hsb junk
  have hrep := holds_rep hsb hw hd hroom hx
  exact ⟨_, varFind_eq hc hw hw64 hrep key, posOf_firstMatch xs key⟩

example : (varOps ⟨8, false, fun _ => true⟩).find (some exBuf) 18 3 5 = .ok 2 := by rfl

/-! ## C11 -/

/-- **C11**: `avx2_bucket::find` returns the smallest index holding the key, or -1, for every number of entries;
cells behind the entries may be uninitialised. -/
theorem C11_avx2_find (sbits : Nat) (hs : IsBlock sbits) (xs : List Nat) (_hx : ∀ x ∈ xs, x < 2 ^ sbits) (rest : Cells)
    (key : Nat) (hkey : key < 2 ^ sbits) :
    ∃ r, (avxOps sbits).find (some (xs.map some ++ rest)) key xs.length 0 = .ok r ∧ IsFirstMatch xs key r :=
  ⟨_, avxFind_eq hs xs rest key hkey, posOf_firstMatch xs key⟩

example : (avxOps 64).find (some ([3, 4, 5, 6, 7, 8].map some ++ [none])) 8 6 0 = .ok 5 := by decide

/-! ## C12 -/

/-- the array-like buckets: `plain_bucket`, `class_bucket`, `avx2_bucket` -/
def IsArrayBucket (sbits : Nat) (ops : BucketOps PlainB) : Prop :=
  ops = plainOps sbits ∨ ops = classOps sbits ∨ ops = avxOps sbits

/-- **C12**: driven by any sequence of calls, a plain, class or AVX2 bucket gives the answers of an array; no call
leaves the allocation or reads an uninitialised entry (both would be faults). -/
theorem C12_array_buckets (sbits : Nat) (hs : IsBlock sbits) (ops : BucketOps PlainB) (hops : IsArrayBucket sbits ops)
    (n0 : Nat) (cmds : List ArrOp) (outs : List Nat) (h : Arr.run sbits false ⟨[], n0⟩ cmds = some outs) :
    bucketSession ops sbits n0 cmds = .ok outs := by
  have h8 : 8 ∣ sbits := by rcases hs with h | h | h | h <;> subst h <;> decide
  have h1 : 1 ≤ sbits := by rcases hs with h | h | h | h <;> omega
  have h64 : sbits ≤ 64 := by rcases hs with h | h | h | h <;> omega
  rcases hops with rfl | rfl | rfl
  · exact bucketSession_refines (lawful_plain h8) (lawful_plain_find sbits) h1 h64 (fun _ => rfl) n0 cmds outs h
  · exact bucketSession_refines (lawful_class h8) (lawful_class_find sbits) h1 h64 (fun _ => rfl) n0 cmds outs h
  · exact bucketSession_refines (lawful_avx hs) (lawful_avx_find hs) h1 h64 (fun _ => rfl) n0 cmds outs h

example : Arr.run 8 false ⟨[], 1⟩ exCmds = some [0, 0, 0, 0, 0, 0, 2, 0, 1, 7, 2 ^ 64 - 1] := by decide

/-- **C12**: `aligned_realloc` copies exactly the old bytes (bucket.hpp:16-29). -/
theorem C12_aligned_realloc (src : List (Option Nat)) (oldsize size : Nat) (h1 : oldsize ≤ src.length) (h2 : oldsize ≤ size) :
    ∃ dst, alignedRealloc src oldsize size = .ok dst ∧ dst.length = size ∧ ∀ i, i < oldsize → dst[i]? = src[i]? := by
  refine ⟨_, alignedRealloc_eq src h1 h2, by simp; omega, ?_⟩
  intro i hi
  rw [List.getElem?_append_left (by simp; omega), List.getElem?_take_of_lt hi]

example : alignedRealloc ((List.range 11).map some) 11 13 = .ok ((List.range 11).map some ++ [none, none]) := by decide

/-! ## C13: false in general -/

/-- **C13 does not hold** for `varwidth_bucket<uint8_t>`: the bucket for one 8-bit entry occupies one byte, but
`write` accesses the 64-bit word. -/
theorem C13_false_byte_blocks : ¬ ∀ (sb : Nat), IsBlock sb → ∀ (junk : Bits) (w n i x : Nat), 1 ≤ w → w ≤ 64 → i < n →
    ∃ b b', (varOps ⟨sb, true, junk⟩).init n w = .ok b ∧ (varOps ⟨sb, true, junk⟩).write b i x w = .ok b' := by
  intro h
  obtain ⟨b, b', h1, h2⟩ := h 8 (by simp [IsBlock]) (fun _ => false) 8 1 0 5 (by decide) (by decide) (by decide)
  simp only [varOps, varInit, Except.ok.injEq] at h1
  subst h1
  simp [varOps, varWrite, deref, writeInt, guardB, mallocBits, varBits, ceilDiv] at h2

/-- **C13 does not hold** for `erase` even with 64-bit blocks: whenever the entries fill the allocation so that no
further entry fits, `erase` of any position reads behind the allocation. -/
theorem C13_erase_overreads (junk : Bits) (m : Buf) (w len pos : Nat) (hw : 1 ≤ w) (hd : 64 ∣ m.alloc)
    (hp : pos < len) (hfull : m.alloc < (len + 1) * w) :
    (varOps ⟨64, true, junk⟩).erase (some m) pos len w = .error .oob :=
  varErase_oob rfl rfl hd hw hp hfull

example : (varOps ⟨64, true, fun _ => false⟩).erase (some ⟨64, fun _ => false⟩) 0 4 16 = .error .oob :=
  C13_erase_overreads _ _ 16 4 0 (by decide) (by decide) (by decide) (by decide)

/-- **C13, what holds**: with 64-bit blocks, any sequence of calls in which `erase` is only called while there is room
for a further entry stays inside the allocation (in strict mode any access outside is a fault).
Missing: smaller blocks and `erase` on a full bucket, for which the claim is false. -/
theorem C13_in_bounds_partial (junk : Bits) (w : Nat) (hw : 1 ≤ w) (hw64 : w ≤ 64) (n0 : Nat)
    (cmds : List ArrOp) (outs : List Nat) (h : Arr.run w true ⟨[], n0⟩ cmds = some outs) :
    bucketSession (varOps ⟨64, true, junk⟩) w n0 cmds = .ok outs :=
  have hc : VarCfg.good ⟨64, true, junk⟩ := ⟨Or.inr (Or.inr (Or.inr rfl)), Or.inr rfl⟩
  bucketSession_refines (lawful_var_strict hc) (lawful_var_find hc) hw hw64 (fun _ => rfl) n0 cmds outs h

example : Arr.run 5 true ⟨[], 1⟩ exCmds = some [0, 0, 0, 0, 0, 0, 2, 0, 1, 7, 2 ^ 64 - 1] := by decide

/-! ## C14 -/

/-- **C14**: the growth rule returns at least the requested capacity and at most 255 for every request up to 255. -/
theorem C14_resize_rule (n : Nat) (h : n ≤ 255) : n ≤ arbResize n ∧ arbResize n ≤ 255 := by
  unfold arbResize maxBucketByteSize
  split <;> omega

/-- **C14**: it strictly grows unless the limit is reached (so doubling makes progress). -/
theorem C14_resize_grows (n : Nat) (h0 : 0 < n) (h : n < 255) : n < arbResize n := by
  unfold arbResize maxBucketByteSize
  split <;> omega

/-- **C14**: and it returns less than requested for every larger request. -/
theorem C14_resize_rule_large (n : Nat) (h : 255 < n) : arbResize n < n := by
  unfold arbResize maxBucketByteSize
  split <;> omega

end SC
