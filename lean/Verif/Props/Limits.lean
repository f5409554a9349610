import Verif.Props.Table
import Verif.Props.Compact
import Verif.Props.Group
/-!
# Limits of the tables: C70 - C72
-/
namespace SC

/-! ## Model -/

variable {S O KB VB : Type}

/-- `(-1ULL) >> (64-width)`; the difference is an `int`, a shift by a negative number or by 64 is undefined -/
def allOnes (width : Nat) : Res Nat := if 64 < width then .error .shift else shr64 (W64 - 1) (64 - width)

/-- `max_key()`, sep:273, cmp:169, grp:890; the narrowing to `key_type` is not modelled -/
def Tab.maxKey (t : Tab S O) : Res Nat := allOnes t.kw

/-- `max_value()`, sep:278, cmp:172, grp:892; the narrowing to `value_type` is not modelled -/
def Tab.maxValue (t : Tab S O) : Res Nat := allOnes t.vw

/-- `max_size()`, cmp:189-195 -/
def cmpMaxSize (t : Tab CmpStore O) : Nat := 255 * t.bucketCount % W64

/-- `m_hash.remainder_width(m_buckets)`: the width of the quotients handed to the buckets, sep:182, 440, 554, 652, 726 -/
def Tab.quotientWidth (g : Cfg S O) (t : Tab S O) : Nat := (t.hash g).remainderWidth t.tb

theorem allOnes_eq {w : Nat} (h1 : 1 ≤ w) (h2 : w ≤ 64) : ∃ m, allOnes w = .ok m ∧ m + 1 = 2 ^ w := by
  refine ⟨2 ^ w - 1, ?_, Nat.sub_add_cancel Nat.one_le_two_pow⟩
  unfold allOnes shr64
  rw [if_neg (by omega), if_pos (by omega), Nat.shiftRight_eq_div_pow]
  refine congrArg Except.ok ?_
  have e : W64 = 2 ^ w * 2 ^ (64 - w) := by
    rw [← Nat.pow_add, show w + (64 - w) = 64 by omega]
  have h0 : 0 < 2 ^ (64 - w) := Nat.two_pow_pos _
  have h1 : 0 < 2 ^ w := Nat.two_pow_pos _
  rw [e, Nat.div_eq_iff h0]
  generalize 2 ^ w = A at *
  generalize 2 ^ (64 - w) = B at *
  obtain ⟨a, rfl⟩ : ∃ a, A = a + 1 := ⟨A - 1, by omega⟩
  rw [Nat.add_sub_cancel, Nat.add_mul, Nat.one_mul]
  omega

/-! ## C70 -/

/-- the hash mappings with quotients -/
def HashKind.quotienting : HashKind → Prop
  | .splitMix => False
  | _ => True

theorem Live.quotientWidth {g : Cfg S O} {P : Par S O} {t : Tab S O} {c : Cont} {o : List (Nat × Nat × Nat)} {full : Nat → Bool}
    (L : Laws g P) (hl : Live g P t c o full) : 0 < t.quotientWidth g ∧ t.quotientWidth g ≤ P.kw := by
  unfold Tab.quotientWidth Tab.hash
  rw [hl.tkw]
  exact ⟨(L.mapping t.tb hl.lo hl.hi).width_pos, (L.qw_le t.tb hl.lo hl.hi).1⟩

theorem bij_width {hk : HashKind} {kw tb : Nat} (hq : hk.quotienting) (h1 : kw ≤ 64) (h2 : tb ≤ kw) :
    (hk.mapping kw).remainderWidth tb + tb = kw := by
  cases hk with
  | xorshift sbits => simp only [HashKind.mapping, bijectiveHashAdapter]; omega
  | multiplicative sbits => simp only [HashKind.mapping, bijectiveHashAdapter]; omega
  | splitMix => exact hq.elim

/-- The part of **C70** that holds: with `SEPARATE_MAX_BUCKET_SIZE` from 2 on, the quotients always have at least one bit and at most the
bits of a key, as asserted before every access to a bucket; with a bijective hash function these are `log2(bucket_count())` bits fewer
than the key has.  Missing is the value 1, for which there may be no bit left. -/
theorem C70_quotient_width_partial {p : SepCfg KB VB} {hk : HashKind} {tr : Nat → Nat → Nat} {W kw vw : Nat}
    (h : SepOK p hk tr W kw vw) {ops : List MapOp} (hops : ∀ op ∈ ops, SepValid hk W kw op)
    {t : Tab (SepStore KB VB) Unit} (ht : SepAfter p hk kw vw ops t) (hb : t.bucketCount ≠ 0) :
    0 < t.quotientWidth (sepMap p hk) ∧ t.quotientWidth (sepMap p hk) ≤ kw ∧
      (hk.quotienting → t.bucketCount * 2 ^ t.quotientWidth (sepMap p hk) = 2 ^ kw) := by
  obtain ⟨P, l, hP, hi, _⟩ := sep_after h hops ht
  have L := hP.laws
  have e : P.kw = kw := by obtain ⟨_, _, rfl⟩ := hP.par; rfl
  have e2 : P.hi = hk.width kw - 1 := by obtain ⟨_, _, rfl⟩ := hP.par; rfl
  rcases hi with ⟨_, _, _, _, h5, _⟩ | ⟨c, o, full, hl, _⟩
  · exact absurd (by simp [Tab.bucketCount, h5]) hb
  · obtain ⟨h1, h2⟩ := hl.quotientWidth L
    refine ⟨h1, e ▸ h2, fun hq => ?_⟩
    have h3 : t.tb ≤ kw := by
      have := hl.hi
      rw [e2] at this
      cases hk <;> first | exact hq.elim | (simp only [HashKind.width] at this; omega)
    have h4 : t.kw = kw := hl.tkw.trans e
    have h6 := bij_width hq (e ▸ L.kw_le) h3
    rw [hl.bc L, ← Nat.pow_add]
    congr 1
    have h7 : t.quotientWidth (sepMap p hk) = (hk.mapping kw).remainderWidth t.tb := by
      unfold Tab.quotientWidth Tab.hash
      rw [h4]; rfl
    omega

/-- **C70** is false for `SEPARATE_MAX_BUCKET_SIZE` = 1: the fifth key of a table with 3-bit keys leads to eight buckets and quotients
without bits. -/
theorem C70_max_bucket_size_one_false :
    ¬ ∀ (ops : List MapOp) (t : Tab (SepStore PlainB PlainB) Unit), (∀ op ∈ ops, SepValid (.xorshift 16) 16 3 op) →
      SepAfter { exCfg with maxBucket := 1 } (.xorshift 16) 3 20 ops t → t.bucketCount ≠ 0 →
      0 < t.quotientWidth (sepMap { exCfg with maxBucket := 1 } (.xorshift 16)) := by
  intro hall
  have hv : ∀ op ∈ (List.range 5).map (fun k => MapOp.insert k 0), SepValid (.xorshift 16) 16 3 op := by decide +kernel
  have h : (match Tab.run (sepMap { exCfg with maxBucket := 1 } (.xorshift 16))
      (Tab.new (sepMap { exCfg with maxBucket := 1 } (.xorshift 16)) 3 20) ((List.range 5).map (fun k => MapOp.insert k 0)) with
    | .ok (t, _) => t.bucketCount == 8 && t.quotientWidth (sepMap { exCfg with maxBucket := 1 } (.xorshift 16)) == 0
    | .error _ => false) = true := by decide +kernel
  cases hr : Tab.run (sepMap { exCfg with maxBucket := 1 } (.xorshift 16))
      (Tab.new (sepMap { exCfg with maxBucket := 1 } (.xorshift 16)) 3 20) ((List.range 5).map (fun k => MapOp.insert k 0)) with
  | error e => rw [hr] at h; cases h
  | ok r =>
    rw [hr] at h
    simp only [Bool.and_eq_true, beq_iff_eq] at h
    have := hall _ r.1 hv ⟨r.2, hr⟩ (by omega)
    rw [h.2] at this
    cases this

example : ∃ t, SepAfter exCfg (.xorshift 16) 10 20 exOps t ∧ t.quotientWidth (sepMap exCfg (.xorshift 16)) = 3 := by
  obtain ⟨t, h1, h2, _⟩ := exAfter
  refine ⟨t, h1, ?_⟩
  have := (C70_quotient_width_partial exOK exOps_valid h1 (by omega)).2.2 trivial
  rw [h2] at this
  have h3 : 2 ^ t.quotientWidth (sepMap exCfg (.xorshift 16)) = 2 ^ 3 := by omega
  exact Nat.pow_right_injective (Nat.le_refl 2) h3

/-! ## C71 -/

/-- `max_key()` and `max_value()` are defined; keys and values up to them can be stored: `m[k] = v` changes the value of `k` to `v`, and no
other. -/
def LimitSpec (g : Cfg S O) (kw vw : Nat) (t : Tab S O) : Prop :=
  ∃ mk mv, t.maxKey = .ok mk ∧ t.maxValue = .ok mv ∧ mk + 1 = 2 ^ kw ∧ mv + 1 = 2 ^ vw ∧
    ∀ k v, k ≤ mk → v ≤ mv → ∃ t' n t'', t.subscript g k = .ok (t', n) ∧ t'.writeValue g n v = .ok t'' ∧
      t''.lookup g k = .ok (some (k, v)) ∧ ∀ k', k' ≤ mk → k' ≠ k → t''.lookup g k' = t.lookup g k'

theorem limits {g : Cfg S O} {tr : Nat → Nat} {kw vw : Nat} {t : Tab S O} (h1 : 1 ≤ kw) (h2 : kw ≤ 64) (h3 : 1 ≤ vw) (h4 : vw ≤ 64)
    (ek : t.kw = kw) (ev : t.vw = vw) (ha : ∀ k v, k < 2 ^ kw → AssignSpec g tr kw t k v) (ht : ∀ v < 2 ^ vw, tr v = v) :
    LimitSpec g kw vw t := by
  obtain ⟨mk, a1, a2⟩ := allOnes_eq h1 h2
  obtain ⟨mv, b1, b2⟩ := allOnes_eq h3 h4
  refine ⟨mk, mv, by rw [Tab.maxKey, ek, a1], by rw [Tab.maxValue, ev, b1], a2, b2, fun k v hk hv => ?_⟩
  obtain ⟨t', n, t'', c1, c2, c3, c4, _⟩ := ha k v (by omega)
  rw [ht v (by omega)] at c3
  exact ⟨t', n, t'', c1, c2, c3, fun k' hk' hne => c4 k' (by omega) hne⟩

theorem supports_kw {hk : HashKind} {kw W ini : Nat} (h : hk.Supports kw W ini) : 1 ≤ kw ∧ kw ≤ 64 := by
  cases hk <;> simp only [HashKind.Supports] at h <;> omega

/-- **C71** for `separate_chaining_map`, if the value bucket stores values of the given width. -/
theorem C71_separate_limits {p : SepCfg KB VB} {hk : HashKind} {tr : Nat → Nat → Nat} {W kw vw : Nat}
    (h : SepOK p hk tr W kw vw) (hv : ∀ v < 2 ^ vw, tr vw v = v) {ops : List MapOp} (hops : ∀ op ∈ ops, SepValid hk W kw op)
    {t : Tab (SepStore KB VB) Unit} (ht : SepAfter p hk kw vw ops t) : LimitSpec (sepMap p hk) kw vw t := by
  obtain ⟨h1, h2⟩ := supports_kw h.hash
  obtain ⟨P, hP, hs, e1, e2, _⟩ := sep_sem h hops ht
  have hw := hs.widths
  exact limits h1 h2 h.vw_pos h.vw_le (hw.1.trans e1) (hw.2.trans e2) (C18_separate_assign h hops ht) hv

/-- **C71** for `compact_chaining_map`. -/
theorem C71_compact_limits {c : VarCfg} {hk : HashKind} {kw vw : Nat} (h : CmpOK c hk kw vw) {ops : List MapOp}
    (hops : ∀ op ∈ ops, CmpValid hk kw op) {t : Tab CmpStore Unit} (ht : After (cmpMap c hk) kw vw ops t) :
    LimitSpec (cmpMap c hk) kw vw t := by
  obtain ⟨h1, h2⟩ := supports_kw h.hash
  have ho := C55_compact_observed h hops ht
  exact limits h1 h2 h.vw_pos h.vw_le ho.widths.1 ho.widths.2 ho.assign (fun v hv => Nat.mod_eq_of_lt hv)

/-- **C71** for `group_chaining_table`. -/
theorem C71_group_limits {c : GrpCfg} {hk : HashKind} {kw vw : Nat} (h : GrpOK hk kw vw) {ops : List MapOp}
    (hops : ∀ op ∈ ops, GrpValid hk kw op) {t : Tab GrpStore Unit} (ht : After (grpMap c hk) kw vw ops t) :
    LimitSpec (grpMap c hk) kw vw t := by
  obtain ⟨h1, h2⟩ := supports_kw h.hash
  have ho := C43_group_observed h hops ht
  exact limits h1 h2 h.vw_pos h.vw_le ho.widths.1 ho.widths.2 ho.assign (fun v hv => Nat.mod_eq_of_lt hv)

/-- `max_key()` cannot be exceeded: with 11-bit keys, the key 2048 is stored as 32. -/
theorem C71_beyond_max_key :
    (match Tab.run (cmpMap cmpEx (.xorshift 64)) (Tab.new (cmpMap cmpEx (.xorshift 64)) 11 13) [.insert 2048 5, .find 32, .size] with
    | .ok (_, as) => as == [.pair 32 5, .pair 32 5, .num 1]
    | .error _ => false) = true := by decide +kernel

/-- nor can `max_value()`: with 13-bit values, 2^13 is stored as 0 -/
theorem C71_beyond_max_value {c : VarCfg} {hk : HashKind} {kw vw : Nat} (h : CmpOK c hk kw vw) {ops : List MapOp}
    (hops : ∀ op ∈ ops, CmpValid hk kw op) {t : Tab CmpStore Unit} (ht : After (cmpMap c hk) kw vw ops t) {k : Nat} (hk' : k < 2 ^ kw) :
    ∃ mv t' n t'', t.maxValue = .ok mv ∧ t.subscript (cmpMap c hk) k = .ok (t', n) ∧
      t'.writeValue (cmpMap c hk) n (mv + 1) = .ok t'' ∧ t''.lookup (cmpMap c hk) k = .ok (some (k, 0)) := by
  have ho := C55_compact_observed h hops ht
  obtain ⟨mk, mv, _, h2, _, h4, _⟩ := C71_compact_limits h hops ht
  obtain ⟨t', n, t'', c1, c2, c3, _⟩ := ho.assign k (mv + 1) hk'
  refine ⟨mv, t', n, t'', h2, c1, c2, ?_⟩
  rw [c3, h4]
  simp

example : ∃ t, SepAfter exCfg (.xorshift 16) 10 20 exOps t ∧ LimitSpec (sepMap exCfg (.xorshift 16)) 10 20 t := by
  obtain ⟨t, h1, _⟩ := exAfter
  exact ⟨t, h1, C71_separate_limits exOK (fun v hv => Nat.mod_eq_of_lt (by omega)) exOps_valid h1⟩

example : ∃ t, After (cmpMap cmpEx (.xorshift 64)) 11 13 cmpExOps t ∧ LimitSpec (cmpMap cmpEx (.xorshift 64)) 11 13 t := by
  obtain ⟨t, h1, _⟩ := cmpExAfter
  exact ⟨t, h1, C71_compact_limits cmpExOK cmpExOps_valid h1⟩

/-! ## C72 -/

/-- **C72** for `compact_chaining_map`: `size()` is at most `max_size()`, unless there are more than `2^56` buckets. -/
theorem C72_compact_max_size {c : VarCfg} {hk : HashKind} {kw vw : Nat} (h : CmpOK c hk kw vw) {ops : List MapOp}
    (hops : ∀ op ∈ ops, CmpValid hk kw op) {t : Tab CmpStore Unit} (ht : After (cmpMap c hk) kw vw ops t)
    (hb : t.bucketCount ≤ 2 ^ 56) : t.size ≤ cmpMaxSize t := by
  obtain ⟨h1, h2⟩ := C57_compact_space h hops ht
  have h3 : ∀ n ∈ (List.range t.bucketCount).map (fun b => (t.store.bkt b).size), n ≤ 255 := by
    intro n hn
    obtain ⟨b, hb, rfl⟩ := List.mem_map.mp hn
    have hb : b < t.bucketCount := by simpa using hb
    obtain ⟨x, g1, g2, _⟩ := h2 b hb
    unfold CmpStore.get at g1
    split at g1
    · cases g1; exact g2
    · cases g1
  have h4 := sum_le_mul h3
  rw [h1] at h4
  unfold cmpMaxSize
  rw [Nat.mod_eq_of_lt (Nat.lt_of_le_of_lt (Nat.mul_le_mul_left 255 hb) (by decide))]
  simpa using h4

theorem pre_local (cont : Cont) (bpg n : Nat) :
    pre (fun b => (cont b).length) (n * bpg) = ((List.range n).map (fun j => (flat (localCont bpg cont j) bpg).length)).sum := by
  have hadd : ∀ (f : Nat → Nat) a b, pre f (a + b) = pre f a + pre (fun i => f (a + i)) b := by
    intro f a b
    induction b with
    | zero => rfl
    | succ b ih => rw [← Nat.add_assoc]; simp only [pre, ih]; omega
  induction n with
  | zero => simp [pre]
  | succ n ih =>
    rw [Nat.succ_mul, hadd, ih, List.range_succ, List.map_append, List.sum_append]
    simp only [List.map_cons, List.map_nil, List.sum_cons, List.sum_nil, Nat.add_zero, Nat.add_left_cancel_iff]
    rw [flat_length]
    apply pre_congr
    intro i hi
    simp only [localCont, if_pos hi]

theorem pre_eq_sum (f : Nat → Nat) (n : Nat) : pre f n = ((List.range n).map f).sum := by
  induction n with
  | zero => rfl
  | succ n ih => rw [List.range_succ, List.map_append, List.sum_append, ← ih]; simp [pre]

theorem pre_zero_beyond (f : Nat → Nat) {a b : Nat} (h : a ≤ b) (hz : ∀ i, a ≤ i → f i = 0) : pre f b = pre f a := by
  induction b with
  | zero => rw [Nat.le_zero.mp h]
  | succ b ih =>
    rcases Nat.lt_or_ge a (b + 1) with h1 | h1
    · have := ih (by omega); simp only [pre, this, hz b (by omega)]; rfl
    · rw [Nat.le_antisymm h h1]

/-- what the groups hold, with or without overflow table -/
theorem grp_sizes {O : Type} {g : Cfg GrpStore O} {sp : Bool} {t : Tab GrpStore O} {cont : Cont} (hr : GrpRep sp t.store (t.dim g) cont)
    (htb : t.tb ≠ 0) (hbc : t.bucketCount = 2 ^ t.tb) (hbpg : 1 ≤ t.bpg) :
    grpCount t = t.store.n ∧ (∀ j < t.store.n, (t.store.grp j).size ≤ 255) ∧
    ((List.range (grpCount t)).map (fun j => (t.store.grp j).size)).sum = ((List.range (2 ^ t.tb)).map (fun b => (cont b).length)).sum := by
  have hcount : grpCount t = t.store.n := by
    rw [grpCount, if_neg htb, hbc]; exact hr.n.symm
  have hsz : ∀ j < t.store.n, (t.store.grp j).size = (flat (localCont t.bpg cont j) t.bpg).length ∧ (t.store.grp j).size ≤ 255 := by
    intro j hj
    rcases hr.grp j hj with ⟨h1, h2⟩ | ⟨h1, h2⟩
    · have : (flat (localCont t.bpg cont j) t.bpg).length = 0 := by
        rw [flat_length, pre_zero_beyond (a := 0) _ (Nat.zero_le _)]
        · rfl
        · intro i _
          rw [show localCont t.bpg cont j i = [] from h2 i]; rfl
      rw [this, h1]
      exact ⟨rfl, Nat.zero_le _⟩
    · exact ⟨h1.size, by rw [h1.size]; exact h2⟩
  refine ⟨hcount, fun j hj => (hsz j hj).2, ?_⟩
  rw [← pre_eq_sum (fun b => (cont b).length),
    ← pre_zero_beyond (fun b => (cont b).length) (a := 2 ^ t.tb) (b := t.store.n * t.bpg), pre_local, hcount]
  · congr 1
    apply List.map_congr_left
    intro j hj
    exact (hsz j (by simpa using hj)).1
  · have e : t.store.n = 2 ^ t.tb / t.bpg + 1 := hr.n
    rw [e, Nat.succ_mul]
    have := Nat.div_add_mod (2 ^ t.tb) t.bpg
    have := Nat.mod_lt (2 ^ t.tb) hbpg
    rw [Nat.mul_comm]
    omega
  · intro i hi
    rw [hr.out i hi]; rfl

/-- the sum of the sizes of the groups is at most `capacity()` -/
theorem grp_sum_le {O : Type} {t : Tab GrpStore O} (htb : t.tb ≠ 0) (h : ∀ j < grpCount t, (t.store.grp j).size ≤ 255) (hb : t.bucketCount ≤ 2 ^ 56) :
    ((List.range (grpCount t)).map (fun j => (t.store.grp j).size)).sum ≤ grpCapacity t := by
  have h1 : ∀ n ∈ (List.range (grpCount t)).map (fun j => (t.store.grp j).size), n ≤ 255 := by
    intro n hn
    obtain ⟨j, hj, rfl⟩ := List.mem_map.mp hn
    exact h j (by simpa using hj)
  have h2 := sum_le_mul h1
  have h3 : grpCount t ≤ 2 ^ 56 + 1 := by
    rw [grpCount, if_neg htb]
    have := Nat.div_le_self t.bucketCount t.bpg
    omega
  unfold grpCapacity
  rw [Nat.mod_eq_of_lt (Nat.lt_of_le_of_lt (Nat.mul_le_mul_right 255 h3) (by decide)), Nat.mul_comm]
  simpa using h2

/-- **C72** for `group_chaining_table`: no group holds more than 255 entries, the sizes of the groups add up to `size()`, which is at most
`capacity()` and `max_size()`, unless there are more than `2^56` buckets. -/
theorem C72_group_capacity {c : GrpCfg} {hk : HashKind} {kw vw : Nat} (h : GrpOK hk kw vw) {ops : List MapOp}
    (hops : ∀ op ∈ ops, GrpValid hk kw op) {t : Tab GrpStore Unit} (ht : After (grpMap c hk) kw vw ops t) :
    (∀ j < grpCount t, ∃ x, t.store.get j = .ok x ∧ x.size ≤ 255) ∧
    ((List.range (grpCount t)).map (fun j => (t.store.grp j).size)).sum = t.size ∧
    (t.bucketCount ≤ 2 ^ 56 → t.size ≤ grpCapacity t) := by
  rcases grp_live h hops ht with ⟨h5, h6⟩ | ⟨cont, full, hl⟩
  · have e : grpCount t = 0 := by simp [grpCount, h5]
    have e2 : t.size = 0 := h6
    rw [e, e2]
    exact ⟨fun j hj => absurd hj (Nat.not_lt_zero _), rfl, fun _ => Nat.zero_le _⟩
  · have L := (h.covered (c := c) (sp := c.strict) id).laws
    have hr : GrpRep c.strict t.store (t.dim (grpMap c hk)) cont := hl.rep
    have htb : t.tb ≠ 0 := by have := hl.lo; have := L.lo_pos; omega
    obtain ⟨hcount, hsz, hsum⟩ := grp_sizes hr htb (hl.bc L) hl.bpg_pos
    rw [← hl.size_sum] at hsum
    refine ⟨fun j hj => ⟨t.store.grp j, ?_, hsz j (hcount ▸ hj)⟩, hsum, fun hb => ?_⟩
    · rw [hcount] at hj
      unfold GrpStore.get
      rw [if_pos hj]
    · rw [← hsum]
      exact grp_sum_le htb (fun j hj => hsz j (hcount ▸ hj)) hb

example : ∃ t, After (cmpMap cmpEx (.xorshift 64)) 11 13 cmpExOps t ∧ t.size ≤ cmpMaxSize t := by
  obtain ⟨t, h1, h2⟩ := cmpExAfter
  exact ⟨t, h1, C72_compact_max_size cmpExOK cmpExOps_valid h1 (by have := h2; omega)⟩

example : ∃ t, After (grpMap grpEx (.xorshift 64)) 11 13 grpExOps t ∧
    ((List.range (grpCount t)).map (fun j => (t.store.grp j).size)).sum = t.size := by
  obtain ⟨t, h1⟩ := C43_group_map_semantics (c := grpEx) grpExOK _ grpExOps_valid
  exact ⟨t, ⟨_, h1⟩, (C72_group_capacity grpExOK grpExOps_valid ⟨_, h1⟩).2.1⟩

end SC
