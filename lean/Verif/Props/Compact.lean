import Verif.Compact.Table
import Verif.Sep.Capacity
/-!
# Properties of `compact_chaining_map`: C37, C38, C55 - C57

`c` describes `storage_type` and the contents of fresh memory, `hk` is the hash mapping.
-/
namespace SC

variable {c : VarCfg} {hk : HashKind} {kw vw : Nat}

/-! ## An instantiation for the examples -/

/-- `compact_chaining_map<xorshift_hash<uint64_t>>` with blocks of 64 bits and strict bounds; fresh memory has all bits set -/
def cmpEx : VarCfg := ⟨64, true, fun _ => true⟩

/-- 11-bit keys and 13-bit values: entries cross word borders -/
theorem cmpExOK : CmpOK cmpEx (.xorshift 64) 11 13 where
  stor := by simp [VarCfg.good, cmpEx]
  hash := by simp only [HashKind.Supports]; omega
  vw_pos := by decide
  vw_le := by decide

/-- insertions, an assignment, erasures and rehashing -/
def cmpExOps : List MapOp :=
  (List.range 40).map (fun i => .insert (37 * i) (100 * i)) ++
  [.assign 74 7, .erase 111, .erase 1, .shrink, .reserve 32, .get 2047, .find 74, .size]

instance (hk : HashKind) (kw : Nat) (op : MapOp) : Decidable (CmpValid hk kw op) :=
  inferInstanceAs (Decidable (ValidOp _ _ _ _ _))

theorem cmpExOps_valid : ∀ op ∈ cmpExOps, CmpValid (.xorshift 64) 11 op := by decide +kernel

/-- the outcome of the history -/
theorem cmpExAfter : ∃ t, After (cmpMap cmpEx (.xorshift 64)) 11 13 cmpExOps t ∧ t.bucketCount = 32 ∧ t.size = 40 := by
  have h : (match Tab.run (cmpMap cmpEx (.xorshift 64)) (Tab.new (cmpMap cmpEx (.xorshift 64)) 11 13) cmpExOps with
    | .ok (t, _) => t.bucketCount == 32 && t.size == 40
    | .error _ => false) = true := by decide +kernel
  revert h
  unfold After
  cases Tab.run (cmpMap cmpEx (.xorshift 64)) (Tab.new (cmpMap cmpEx (.xorshift 64)) 11 13) cmpExOps with
  | error e => intro h; cases h
  | ok r =>
    intro h
    simp only [Bool.and_eq_true, beq_iff_eq] at h
    exact ⟨r.1, ⟨r.2, rfl⟩, h.1, h.2⟩

/-! ## C37 -/

/-- **C37**: every sequence of calls on a new table runs without fault, terminates, and gives the answers of a finite
map whose values have `vw` bits. -/
theorem C37_compact_map_semantics (h : CmpOK c hk kw vw) (ops : List MapOp) (hops : ∀ op ∈ ops, CmpValid hk kw op) :
    ∃ t, Tab.run (cmpMap c hk) (Tab.new (cmpMap c hk) kw vw) ops = .ok (t, FMap.empty.run (fun v => v % 2 ^ vw) ops) :=
  h.covered.run ops hops

example : ∃ t, Tab.run (cmpMap cmpEx (.xorshift 64)) (Tab.new (cmpMap cmpEx (.xorshift 64)) 11 13) cmpExOps =
    .ok (t, FMap.empty.run (fun v => v % 2 ^ 13) cmpExOps) := C37_compact_map_semantics cmpExOK cmpExOps cmpExOps_valid

/-- one-byte blocks, 64-bit keys -/
example : CmpOK ⟨8, false, fun _ => true⟩ (.multiplicative 64) 64 64 where
  stor := by simp [VarCfg.good]
  hash := by simp only [HashKind.Supports]; omega
  vw_pos := by decide
  vw_le := by decide

/-! ## C38 -/

/-- A bucket with `n` entries whose memory has the size the table gives it, with arbitrary contents. -/
structure CmpShape (c : VarCfg) (d : Dim) (x : CmpBucket) (n : Nat) : Prop where
  size : x.size = n
  le : n ≤ 255
  qw : 1 ≤ d.qw ∧ d.qw ≤ 64
  vw : 1 ≤ d.vw ∧ d.vw ≤ 64
  null : n = 0 → x.stor = none
  mem : n ≠ 0 → ∃ m, x.stor = some m ∧ m.alloc = c.sb * ceilDiv (n * (d.qw + d.vw)) c.sb

/-- what can be read from the bucket -/
def CmpShows (c : VarCfg) (d : Dim) (x : CmpBucket) (es : List (Nat × Nat)) : Prop :=
  ∀ i (h : i < es.length), x.quotientAt c d i = .ok es[i].1 ∧ x.valueAt c d i = .ok es[i].2

theorem CmpShape.rep {d : Dim} {x : CmpBucket} {n : Nat} (h : CmpShape c d x n) : ∃ es, es.length = n ∧ CmpBRep c d.qw d.vw x es := by
  by_cases h0 : n = 0
  · subst h0
    exact ⟨[], rfl, h.size, by simp, fun _ => h.null rfl, fun hn => absurd rfl hn⟩
  · obtain ⟨m, h1, h2⟩ := h.mem h0
    refine ⟨(List.range n).map (fun i => (readBits m.bits (i * d.qw) d.qw, readBits m.bits (n * d.qw + i * d.vw) d.vw)), by simp,
      by simp [h.size], by simp [h.le], ?_, ?_⟩
    · intro he
      have := congrArg List.length he
      simp at this; omega
    · intro _
      refine ⟨m, h1, by simpa [varBits] using h2, ?_⟩
      intro i hi
      simp

theorem CmpBRep.shows {d : Dim} {x : CmpBucket} {es : List (Nat × Nat)} (hc : c.good) (hq : 1 ≤ d.qw) (hv : 1 ≤ d.vw)
    (h : CmpBRep c d.qw d.vw x es) : CmpShows c d x es :=
  fun _ hi => ⟨cmp_quotientAt hc hq h hi, cmp_valueAt hc hv h hi⟩

theorem CmpBRep.shape {d : Dim} {x : CmpBucket} {es : List (Nat × Nat)} (hq : 1 ≤ d.qw ∧ d.qw ≤ 64) (hv : 1 ≤ d.vw ∧ d.vw ≤ 64)
    (h : CmpBRep c d.qw d.vw x es) : CmpShape c d x es.length where
  size := h.size
  le := h.le
  qw := hq
  vw := hv
  null := fun h0 => h.empty (List.eq_nil_of_length_eq_zero h0)
  mem := fun h0 => by
    obtain ⟨m, h1, h2, _⟩ := h.stor (by rintro rfl; simp at h0)
    exact ⟨m, h1, h2⟩

/-- **C38**, insertion: whatever the memory contains, all entries of the bucket are readable, and after an insertion the same entries
are read at their places, followed by the new one; the memory has exactly the size for one more entry. -/
theorem C38_compact_push (hc : c.good) {d : Dim} {x : CmpBucket} {n : Nat} (h : CmpShape c d x n) (hn : n < 255)
    {q v : Nat} (hq : q < 2 ^ d.qw) :
    ∃ es y, es.length = n ∧ CmpShows c d x es ∧ x.push c d q v = .ok y ∧ CmpShape c d y (n + 1) ∧
      CmpShows c d y (es ++ [(q, v % 2 ^ d.vw)]) := by
  obtain ⟨es, h1, h2⟩ := h.rep
  obtain ⟨y, h3, h4⟩ := cmp_push hc h.qw.1 h.vw.1 h2 (by omega) hq v
  refine ⟨es, y, h1, h2.shows hc h.qw.1 h.vw.1, h3, ?_, h4.shows hc h.qw.1 h.vw.1⟩
  have := h4.shape h.qw h.vw
  simpa [h1] using this

/-- **C38**, erasure: the remaining entries are read in the same order; the memory has exactly the size for them. -/
theorem C38_compact_erase (hc : c.good) {d : Dim} {x : CmpBucket} {n : Nat} (h : CmpShape c d x n) {p : Nat} (hp : p < n) :
    ∃ es y, es.length = n ∧ CmpShows c d x es ∧ x.erase c d p = .ok y ∧ CmpShape c d y (n - 1) ∧
      CmpShows c d y (es.eraseIdx p) := by
  obtain ⟨es, h1, h2⟩ := h.rep
  obtain ⟨y, h3, h4⟩ := cmp_erase hc h.qw.1 h.vw.1 h2 (show p < es.length by omega)
  refine ⟨es, y, h1, h2.shows hc h.qw.1 h.vw.1, h3, ?_, h4.shows hc h.qw.1 h.vw.1⟩
  have := h4.shape h.qw h.vw
  rw [List.length_eraseIdx_of_lt (by omega), h1] at this
  exact this

/-- **C38**, assignment: `write_value` changes the value at its position only. -/
theorem C38_compact_write_value (hc : c.good) {d : Dim} {x : CmpBucket} {n : Nat} (h : CmpShape c d x n) {p : Nat} (hp : p < n)
    (v : Nat) :
    ∃ es y, ∃ hl : es.length = n, CmpShows c d x es ∧ x.writeValue c d p v = .ok y ∧ CmpShape c d y n ∧
      CmpShows c d y (es.set p ((es[p]'(by omega)).1, v % 2 ^ d.vw)) := by
  obtain ⟨es, h1, h2⟩ := h.rep
  obtain ⟨y, h3, h4⟩ := cmp_writeValue hc h.vw.1 h2 (show p < es.length by omega) v
  refine ⟨es, y, h1, h2.shows hc h.qw.1 h.vw.1, h3, ?_, h4.shows hc h.qw.1 h.vw.1⟩
  have := h4.shape h.qw h.vw
  simpa [h1] using this

/-- seven entries of 9 + 13 bits: 154 bits in three words -/
example : CmpShape cmpEx { kw := 11, vw := 13, tb := 2, qw := 9, bpg := 1 }
    { stor := some { alloc := 192, bits := fun i => i % 3 == 0 }, size := 7 } 7 where
  size := rfl
  le := by decide
  qw := by decide
  vw := by decide
  null := by decide
  mem := fun _ => ⟨_, rfl, by decide⟩

/-! ## C55 -/

/-- **C55**: what single calls do, as seen through `find`, `size()` and iterators. -/
theorem C55_compact_observed (h : CmpOK c hk kw vw) {ops : List MapOp} (hops : ∀ op ∈ ops, CmpValid hk kw op)
    {t : Tab CmpStore Unit} (ht : After (cmpMap c hk) kw vw ops t) :
    Observed (cmpMap c hk) (fun v => v % 2 ^ vw) (hk.lo kw 64) (hk.width kw - 1) kw vw
      (FMap.empty.after (fun v => v % 2 ^ vw) ops) t :=
  h.covered.observed (h.covered.sem hops ht)

/-- **C55**, from `rbegin_nav()`: the pairs are visited in reverse order; if they are erased on the way, the table is empty
afterwards. -/
theorem C55_compact_observed_back (h : CmpOK c hk kw vw) {ops : List MapOp} (hops : ∀ op ∈ ops, CmpValid hk kw op)
    {t : Tab CmpStore Unit} (ht : After (cmpMap c hk) kw vw ops t) : ObservedBack (cmpMap c hk) kw t :=
  h.covered.observedBack (h.covered.sem hops ht)

/-- every history has an outcome, for instance -/
example : ∃ t, After (cmpMap cmpEx (.xorshift 64)) 11 13 cmpExOps t ∧
    Observed (cmpMap cmpEx (.xorshift 64)) (fun v => v % 2 ^ 13) 1 10 11 13 (FMap.empty.after (fun v => v % 2 ^ 13) cmpExOps) t := by
  obtain ⟨t, ht, _⟩ := cmpExAfter
  exact ⟨t, ht, C55_compact_observed cmpExOK cmpExOps_valid ht⟩

/-! ## C56 -/

/-- **C56** is false: after inserting one key and erasing it, `rbegin_nav()` reads out of bounds. -/
theorem C56_compact_rbegin_false :
    ¬ ∀ (ops : List MapOp) (t : Tab CmpStore Unit), (∀ op ∈ ops, CmpValid (.xorshift 64) 11 op) →
      After (cmpMap cmpEx (.xorshift 64)) 11 13 ops t → ∃ n, t.rbeginNav (cmpMap cmpEx (.xorshift 64)) = .ok n := by
  intro hall
  have hv : ∀ op ∈ [MapOp.insert 5 1, MapOp.erase 5], CmpValid (.xorshift 64) 11 op := by decide +kernel
  have h : (match Tab.run (cmpMap cmpEx (.xorshift 64)) (Tab.new (cmpMap cmpEx (.xorshift 64)) 11 13)
      [MapOp.insert 5 1, MapOp.erase 5] with
    | .ok (t, _) => t.rbeginNav (cmpMap cmpEx (.xorshift 64)) == .error .oob
    | .error _ => false) = true := by decide +kernel
  obtain ⟨t, ht⟩ := C37_compact_map_semantics cmpExOK _ hv
  rw [ht] at h
  obtain ⟨n, hn⟩ := hall _ t hv ⟨_, ht⟩
  simp only [hn] at h
  cases h

/-- The part of **C56** that holds: `rbegin_nav()` is defined if and only if there are no buckets or there is an element; on a table
without buckets it equals `rend_nav()`.  Missing: tables with buckets, but without elements. -/
theorem C56_compact_rbegin_partial (h : CmpOK c hk kw vw) {ops : List MapOp}
    (hops : ∀ op ∈ ops, CmpValid hk kw op) {t : Tab CmpStore Unit} (ht : After (cmpMap c hk) kw vw ops t) :
    ((∃ n, t.rbeginNav (cmpMap c hk) = .ok n) ↔ (t.bucketCount = 0 ∨ t.size ≠ 0)) ∧
    (t.bucketCount = 0 → t.rbeginNav (cmpMap c hk) = .ok Nav.end_) ∧
    (t.bucketCount ≠ 0 → t.size = 0 → t.rbeginNav (cmpMap c hk) = .error .oob) := by
  have h2 : t.bucketCount = 0 → t.rbeginNav (cmpMap c hk) = .ok Nav.end_ := by
    intro hb
    simp [Tab.rbeginNav, hb, cmpMap, dummyOverflow]
  have h3 : t.bucketCount ≠ 0 → t.size = 0 → t.rbeginNav (cmpMap c hk) = .error .oob := by
    intro hb he
    exact rbegin_empty h.covered.laws h.covered.noOverflow (h.covered.sem hops ht)
      (fun e => hb (by simp [Tab.bucketCount, e])) he
  refine ⟨⟨fun ⟨n, hn⟩ => ?_, fun hor => ?_⟩, h2, h3⟩
  · by_cases hb : t.bucketCount = 0
    · exact .inl hb
    · refine .inr fun he => ?_
      rw [h3 hb he] at hn
      cases hn
  · by_cases hb : t.bucketCount = 0
    · exact ⟨_, h2 hb⟩
    · obtain ⟨l, _, h5⟩ := (C55_compact_observed_back h hops ht).backward (by rcases hor with h | h; exact absurd h hb; exact h)
      unfold Tab.pairsBack at h5
      cases hr : t.rbeginNav (cmpMap c hk) with
      | ok n => exact ⟨n, rfl⟩
      | error e => rw [hr] at h5; cases h5

/-! ## C57 -/

/-- **C57**: in every reachable table each bucket has at most 255 entries, and its memory is exactly the blocks needed for its quotients
and values (none if it is empty); the bucket sizes sum up to `size()`. -/
theorem C57_compact_space (h : CmpOK c hk kw vw) {ops : List MapOp} (hops : ∀ op ∈ ops, CmpValid hk kw op)
    {t : Tab CmpStore Unit} (ht : After (cmpMap c hk) kw vw ops t) :
    ((List.range t.bucketCount).map (fun b => (t.store.bkt b).size)).sum = t.size ∧
    ∀ b < t.bucketCount, ∃ x, t.store.get b = .ok x ∧ x.size ≤ 255 ∧
      ((x.size = 0 ∧ x.stor = none) ∨
       (∃ m, x.stor = some m ∧ m.alloc = c.sb * ceilDiv (x.size * ((hk.mapping kw).remainderWidth t.tb + vw)) c.sb)) := by
  have hs := h.covered.sem hops ht
  have L := h.covered.laws
  obtain ⟨l, hs, _⟩ := hs
  rcases hs with ⟨_, _, _, _, h5, h6, _⟩ | ⟨cont, o, full, hl, _⟩
  · have hb : t.bucketCount = 0 := by simp [Tab.bucketCount, h5]
    rw [hb]
    exact ⟨by simp [Tab.size, h6], fun b hb => absurd hb (Nat.not_lt_zero _)⟩
  · have ho : o = [] := h.covered.noOverflow _ _ _ _ hl.orep
    subst ho
    have hr : CmpRep c t.store (t.dim (cmpMap c hk)) cont := hl.rep
    have hdq : (t.dim (cmpMap c hk)).qw = (hk.mapping kw).remainderWidth t.tb := by
      have := hl.tkw
      simp only [Tab.dim, Tab.hash, this]; rfl
    have hdv : (t.dim (cmpMap c hk)).vw = vw := hl.tvw
    rw [hl.bc L]
    constructor
    · rw [hl.size_sum]
      congr 1
      apply List.map_congr_left
      intro b hb
      exact (hr.bkt b (show b < 2 ^ t.tb by simpa using hb)).size
    · intro b hb
      have hB := hr.bkt b hb
      refine ⟨_, hr.get hb, by rw [hB.size]; exact hB.le, ?_⟩
      by_cases he : cont b = []
      · exact .inl ⟨by rw [hB.size, he]; rfl, hB.empty he⟩
      · obtain ⟨m, g1, g2, _⟩ := hB.stor he
        refine .inr ⟨m, g1, ?_⟩
        rw [g2, varBits, hB.size, hdq, hdv]

end SC
