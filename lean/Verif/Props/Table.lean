import Verif.Sep.Capacity
/-!
# Properties of `separate_chaining_map` and `separate_chaining_set`: C15 - C31, C33, C34, C53

Throughout, `p` and `hk` are the template arguments (bucket classes, resize strategy, `SEPARATE_MAX_BUCKET_SIZE`; hash
mapping), `tr w v` is what remains of a value `v` when it is stored with value width `w`, `W` is the number of bits the key bucket can
store, and `SepAfter p hk kw vw ops t` says that `t` is the table after the calls `ops` on a new table.
-/
namespace SC

variable {KB VB : Type} {p : SepCfg KB VB} {hk : HashKind} {tr : Nat → Nat → Nat} {W kw vw : Nat}

theorem sep_sem (h : SepOK p hk tr W kw vw) {ops : List MapOp} (hops : ∀ op ∈ ops, SepValid hk W kw op)
    {t : Tab (SepStore KB VB) Unit} (ht : SepAfter p hk kw vw ops t) :
    ∃ P, SepParOK p hk tr W kw vw true P ∧ Sem (sepMap p hk) P t (FMap.empty.after (tr vw) ops) ∧ P.kw = kw ∧ P.vw = vw ∧
      P.norm P.vw = tr vw := by
  obtain ⟨P, l, hP, h1, h2⟩ := sep_after h hops ht
  refine ⟨P, hP, ⟨l, h1, h2⟩, ?_⟩
  obtain ⟨KRep, VRep, rfl⟩ := hP.par
  exact ⟨rfl, rfl, rfl⟩

/-! ## An instantiation for the examples -/

/-- `separate_chaining_map<plain_bucket<uint16_t>, plain_bucket<uint32_t>, xorshift_hash<...>, arbitrary_resize>` with
`SEPARATE_MAX_BUCKET_SIZE` = 3, to have rehashing early -/
def exCfg : SepCfg PlainB PlainB := { kops := plainOps 16, vops := plainOps 32, strat := .arbitrary, maxBucket := 3 }

/-- with 10-bit keys and 20-bit values -/
theorem exOK : SepOK exCfg (.xorshift 16) (fun _ v => v % 2 ^ 32) 16 10 20 where
  keys := .plain (by simp)
  vals := .plain (by simp)
  max := by decide
  hash := by
    have : sepIni 10 = 4 := by decide +kernel
    simp [HashKind.Supports, this]
  vw_pos := by decide
  vw_le := by decide

/-- a history with rehashing, erasure and shrinking -/
def exOps : List MapOp :=
  (List.range 60).map (fun i => .insert (17 * i) (1000 + i)) ++
  [.assign 34 7, .erase 51, .erase 1, .shrink, .reserve 128, .get 1023, .find 34, .size]

instance (hk : HashKind) (W kw : Nat) (op : MapOp) : Decidable (SepValid hk W kw op) :=
  inferInstanceAs (Decidable (ValidOp _ _ _ _ _))

theorem exOps_valid : ∀ op ∈ exOps, SepValid (.xorshift 16) 16 10 op := by decide +kernel

/-- the example leads to more than the initial number of buckets -/
theorem exAfter : ∃ t, SepAfter exCfg (.xorshift 16) 10 20 exOps t ∧ t.bucketCount = 128 ∧ t.size = 60 := by
  have h : (match Tab.run (sepMap exCfg (.xorshift 16)) (Tab.new (sepMap exCfg (.xorshift 16)) 10 20) exOps with
    | .ok (t, _) => t.bucketCount == 128 && t.size == 60
    | .error _ => false) = true := by decide +kernel
  revert h
  unfold SepAfter
  cases Tab.run (sepMap exCfg (.xorshift 16)) (Tab.new (sepMap exCfg (.xorshift 16)) 10 20) exOps with
  | error e => intro h; cases h
  | ok r =>
    intro h
    simp only [Bool.and_eq_true, beq_iff_eq] at h
    exact ⟨r.1, ⟨r.2, rfl⟩, h.1, h.2⟩

/-! ## C15 -/

/-- **C15**: every sequence of calls on a new table runs without fault, terminates, and gives the answers of a finite
map. -/
theorem C15_separate_map_semantics (h : SepOK p hk tr W kw vw) (ops : List MapOp)
    (hops : ∀ op ∈ ops, SepValid hk W kw op) :
    ∃ t, Tab.run (sepMap p hk) (Tab.new (sepMap p hk) kw vw) ops = .ok (t, FMap.empty.run (tr vw) ops) := by
  obtain ⟨P, hP⟩ := h.par true
  obtain ⟨t', l, h1, h2, h3⟩ := Tab.run_new hP.laws hP.grow65 ops (fun op hop => hP.opOK (hops op hop))
  obtain ⟨KRep, VRep, rfl⟩ := hP.par
  exact ⟨t', h1⟩

/-- in particular every history has an outcome -/
theorem sep_exists (h : SepOK p hk tr W kw vw) {ops : List MapOp} (hops : ∀ op ∈ ops, SepValid hk W kw op) :
    ∃ t, SepAfter p hk kw vw ops t := by
  obtain ⟨t, ht⟩ := C15_separate_map_semantics h ops hops
  exact ⟨t, _, ht⟩

example : ∃ t, Tab.run (sepMap exCfg (.xorshift 16)) (Tab.new (sepMap exCfg (.xorshift 16)) 10 20) exOps =
    .ok (t, FMap.empty.run (fun v => v % 2 ^ 32) exOps) := C15_separate_map_semantics exOK exOps exOps_valid

/-- `varwidth_bucket`, multiplicative hashing and 40-bit keys -/
example : SepOK ({ kops := varOps ⟨8, false, fun _ => true⟩, vops := varOps ⟨64, false, fun _ => true⟩, strat := .incremental, maxBucket := 255 } :
    SepCfg VarB VarB) (.multiplicative 64) (fun w v => v % 2 ^ w) 64 40 33 where
  keys := .varwidth ⟨.inl rfl, .inl rfl⟩ rfl
  vals := .varwidth ⟨.inr (.inr (.inr rfl)), .inl rfl⟩ rfl
  max := by decide
  hash := by simp only [HashKind.Supports]; omega
  vw_pos := by decide
  vw_le := by decide

/-- 24-bit keys in 8-bit buckets need 2^16 buckets from the beginning and are not covered -/
example : ¬ (HashKind.xorshift 8).Supports 24 8 (sepIni 24) := by
  have : sepIni 24 = 4 := by decide +kernel
  simp [HashKind.Supports, this]

/-! ## C16 -/

/-- **C16**: `find(k)` equals `end()` iff `k` is not stored; otherwise it gives `k` and the value last stored for it. -/
theorem C16_separate_find (h : SepOK p hk tr W kw vw) {ops : List MapOp} (hops : ∀ op ∈ ops, SepValid hk W kw op)
    {t : Tab (SepStore KB VB) Unit} (ht : SepAfter p hk kw vw ops t) (k : Nat) (hk' : k < 2 ^ kw) :
    t.lookup (sepMap p hk) k = .ok (((FMap.empty.after (tr vw) ops).get k).map (fun v => (k, v))) := by
  obtain ⟨P, hP, hs, rfl, rfl, _⟩ := sep_sem h hops ht
  exact hs.lookup hP.laws hk'

example : ((FMap.empty.after (fun v => v % 2 ^ 32) exOps).get 34, (FMap.empty.after (fun v => v % 2 ^ 32) exOps).get 51) =
    (some 7, none) := by decide +kernel

/-! ## C17 -/

/-- **C17**: `find_or_insert` never overwrites and never duplicates. -/
theorem C17_separate_find_or_insert (h : SepOK p hk tr W kw vw) {ops : List MapOp} (hops : ∀ op ∈ ops, SepValid hk W kw op)
    {t : Tab (SepStore KB VB) Unit} (ht : SepAfter p hk kw vw ops t) (k v : Nat) (hk' : k < 2 ^ kw) :
    InsertSpec (sepMap p hk) (tr vw) kw t k v := by
  obtain ⟨P, hP, hs, e1, e2, e3⟩ := sep_sem h hops ht
  have hop : OpOK P (.insert k v) := hP.opOK ⟨hk', trivial⟩
  rw [← e3, ← e1]
  exact fact_insert hP.laws hP.grow65 hs hop.1 hop.2

/-! ## C18 -/

/-- **C18**: `m[k] = v` changes the value of `k` only. -/
theorem C18_separate_assign (h : SepOK p hk tr W kw vw) {ops : List MapOp} (hops : ∀ op ∈ ops, SepValid hk W kw op)
    {t : Tab (SepStore KB VB) Unit} (ht : SepAfter p hk kw vw ops t) (k v : Nat) (hk' : k < 2 ^ kw) :
    AssignSpec (sepMap p hk) (tr vw) kw t k v := by
  obtain ⟨P, hP, hs, e1, e2, e3⟩ := sep_sem h hops ht
  have hop : OpOK P (.assign k v) := hP.opOK ⟨hk', trivial⟩
  rw [← e3, ← e1]
  exact fact_assign hP.laws hP.grow65 hs hop.1 hop.2.1 hop.2.2

/-! ## C19 -/

/-- **C19**: `erase(k)` removes exactly `k` and reports whether it was there. -/
theorem C19_separate_erase (h : SepOK p hk tr W kw vw) {ops : List MapOp} (hops : ∀ op ∈ ops, SepValid hk W kw op)
    {t : Tab (SepStore KB VB) Unit} (ht : SepAfter p hk kw vw ops t) (k : Nat) (hk' : k < 2 ^ kw) :
    EraseSpec (sepMap p hk) kw t k := by
  obtain ⟨P, hP, hs, rfl, e2, e3⟩ := sep_sem h hops ht
  exact fact_erase hP.laws hs hk'

/-! ## C20 -/

/-- **C20**: `size()` is the number of keys found by `find` and the number of pairs visited by an iterator. -/
theorem C20_separate_size (h : SepOK p hk tr W kw vw) {ops : List MapOp} (hops : ∀ op ∈ ops, SepValid hk W kw op)
    {t : Tab (SepStore KB VB) Unit} (ht : SepAfter p hk kw vw ops t) : SizeSpec (sepMap p hk) kw t := by
  obtain ⟨P, hP, hs, rfl, e2, e3⟩ := sep_sem h hops ht
  exact fact_size hP.laws hP.noOverflow hs

/-! ## C21 -/

/-- **C21**: `reserve(n)` changes neither the contents nor the widths. -/
theorem C21_separate_rehash (h : SepOK p hk tr W kw vw) {ops : List MapOp} (hops : ∀ op ∈ ops, SepValid hk W kw op)
    {t : Tab (SepStore KB VB) Unit} (ht : SepAfter p hk kw vw ops t) (n : Nat) (hn : SepValid hk W kw (.reserve n)) :
    ∃ t', t.reserve (sepMap p hk) n = .ok t' ∧ SameContents (sepMap p hk) kw t t' := by
  obtain ⟨P, hP, hs, rfl, e2, e3⟩ := sep_sem h hops ht
  obtain ⟨t', h1, h2⟩ := fact_reserve hP.laws hP.grow65 hs (hP.opOK hn)
  exact ⟨t', h1, fact_same hP.laws hP.laws hs h2 rfl rfl⟩

/-- growing and shrinking the number of buckets; with 8 buckets of 3 entries the temporary table has to grow again -/
example : SepValid (.xorshift 16) 16 10 (.reserve 8) ∧ SepValid (.xorshift 16) 16 10 (.reserve 512) := by decide +kernel

/-! ## C22 -/

/-- **C22**: `reserve(n)` on a table without buckets gives the smallest power of two that is at least `n`. -/
theorem C22_separate_reserve_rounding (p : SepCfg KB VB) (hk : HashKind) (t : Tab (SepStore KB VB) Unit)
    (ht : t.bucketCount = 0) (n : Nat) (h1 : 2 ≤ n) (h2 : n ≤ 2 ^ 63) :
    ∃ t' r, t.reserve (sepMap p hk) n = .ok t' ∧ t'.bucketCount = 2 ^ r ∧ n ≤ 2 ^ r ∧ ∀ j, n ≤ 2 ^ j → 2 ^ r ≤ 2 ^ j := by
  have htb : t.tb = 0 := by
    unfold Tab.bucketCount at ht
    have := Nat.two_pow_pos t.tb
    split at ht
    · assumption
    · omega
  exact fact_rounding htb rfl h1 h2 (fun d => ⟨_, rfl⟩) (fun m => ⟨_, rfl⟩)

example : (Tab.new (sepMap exCfg .splitMix) 10 20).bucketCount = 0 := rfl

/-! ## C23 -/

/-- **C23**: `shrink_to_fit()` keeps the contents; afterwards `capacity()` equals `size()`. -/
theorem C23_separate_shrink (h : SepOK p hk tr W kw vw) {ops : List MapOp} (hops : ∀ op ∈ ops, SepValid hk W kw op)
    {t : Tab (SepStore KB VB) Unit} (ht : SepAfter p hk kw vw ops t) :
    ∃ t', t.shrink (sepMap p hk) = .ok t' ∧ SameContents (sepMap p hk) kw t t' ∧ p.capacity t' = .ok t'.size := by
  obtain ⟨P, hP, hs, rfl, e2, e3⟩ := sep_sem h hops ht
  obtain ⟨t', h1, h2, h3⟩ := fact_shrink_capacity hP hs
  exact ⟨t', h1, fact_same hP.laws hP.laws hs h2 rfl rfl, h3⟩

/-- before `shrink_to_fit()` there can be slack -/
example : (match Tab.run (sepMap exCfg (.xorshift 16)) (Tab.new (sepMap exCfg (.xorshift 16)) 10 20) (exOps.take 60) with
    | .ok (t, _) => (match exCfg.capacity t with
      | .ok n => decide (t.size < n)
      | .error _ => false)
    | .error _ => false) = true := by decide +kernel

/-! ## C24 -/

/-- **C24**: after `clear()` the table is empty, has no buckets, and can be used like a new table. -/
theorem C24_separate_clear (h : SepOK p hk tr W kw vw) {ops : List MapOp} (hops : ∀ op ∈ ops, SepValid hk W kw op)
    {t : Tab (SepStore KB VB) Unit} (ht : SepAfter p hk kw vw ops t) (ops' : List MapOp)
    (hops' : ∀ op ∈ ops', SepValid hk W kw op) : ClearSpec (sepMap p hk) (tr vw) kw t ops' := by
  obtain ⟨P, hP, hs, e1, e2, e3⟩ := sep_sem h hops ht
  rw [← e3, ← e1]
  exact fact_clear hP.laws hP.grow65 hs ops' (fun op hop => hP.opOK (hops' op hop))

/-! ## C25 -/

/-- **C25**: an insertion terminates.  With `2^ini` the number of buckets of the first allocation and
`M` = `max_bucket_size()`, automatic growth does not lead beyond `2^(width - log2 M)` buckets, where `width` is the key
width for a bijective hash function and 64 for SplitMix. -/
theorem C25_separate_insert_bound (h : SepOK p hk tr W kw vw) {ops : List MapOp} (hops : ∀ op ∈ ops, SepValid hk W kw op)
    {t : Tab (SepStore KB VB) Unit} (ht : SepAfter p hk kw vw ops t) (k v : Nat) (hk' : k < 2 ^ kw) :
    ∃ t' n, t.insert (sepMap p hk) k v = .ok (t', n) ∧ t.bucketCount ≤ t'.bucketCount ∧
      t'.bucketCount ≤ max t.bucketCount (max (2 ^ sepIni kw) (2 ^ (hk.width kw - Nat.log2 p.maxSize))) ∧
      t'.bucketCount ≤ 2 ^ (hk.width kw - 1) ∧ 1 ≤ (hk.mapping kw).remainderWidth t'.tb := by
  obtain ⟨P, hP, hs, e1, e2, e3⟩ := sep_sem h hops ht
  have hop : OpOK P (.insert k v) := hP.opOK ⟨hk', trivial⟩
  obtain ⟨t', n, h1, h2, h3, h4, h5⟩ := fact_insert_buckets hP.laws hP.grow65 hs hop.1 hop.2
  have hw : 1 ≤ (hk.mapping P.kw).remainderWidth t'.tb := (hP.laws.mapping _ h4 h5).width_pos
  rw [e1] at hw
  have hlo := hP.laws.lo_pos
  have e4 : P.ini = sepIni kw := by obtain ⟨_, _, rfl⟩ := hP.par; rfl
  have e5 : P.grow = hk.width kw - Nat.log2 p.maxSize := by
    obtain ⟨_, _, rfl⟩ := hP.par
    simp [sepPar, HashKind.grow]
  have e6 : P.hi = hk.width kw - 1 := by obtain ⟨_, _, rfl⟩ := hP.par; rfl
  have hbc : t'.bucketCount = 2 ^ t'.tb := by unfold Tab.bucketCount; rw [if_neg (by omega)]
  have hle : ∀ a b : Nat, a ≤ b → 2 ^ a ≤ 2 ^ b := fun a b hab => Nat.pow_le_pow_right (by omega) hab
  refine ⟨t', n, h1, ?_, ?_, by rw [hbc, ← e6]; exact hle _ _ h5, hw⟩
  · rw [hbc]
    unfold Tab.bucketCount
    split
    · exact Nat.zero_le _
    · exact hle _ _ h2
  · rw [hbc, ← e4, ← e5]
    by_cases hc : t'.tb ≤ max P.ini P.grow
    · rcases Nat.le_total P.ini P.grow with hig | hig
      · have := hle t'.tb P.grow (by omega); omega
      · have := hle t'.tb P.ini (by omega); omega
    · have e : t.bucketCount = 2 ^ t.tb := by unfold Tab.bucketCount; rw [if_neg (by omega)]
      have := hle t'.tb t.tb (by omega)
      omega

/-- with the default `max_bucket_size()` of 255 the exponent is `width - 7` -/
example : Nat.log2 (SepCfg.maxSize { exCfg with maxBucket := 255 }) = 7 := by decide

/-! ## C26 -/

/-- **C26**: every bucket holds at most `max_bucket_size()` entries, which is at most 255, so that the one-byte counters
are exact; the bucket sizes sum up to `size()`, which is at most `max_size()` unless there are more than `2^56` buckets (then the
product in `max_size()` may wrap around). -/
theorem C26_separate_occupancy (h : SepOK p hk tr W kw vw) {ops : List MapOp} (hops : ∀ op ∈ ops, SepValid hk W kw op)
    {t : Tab (SepStore KB VB) Unit} (ht : SepAfter p hk kw vw ops t) :
    ∃ ns, sepBucketSizes t = .ok ns ∧ ns.length = t.bucketCount ∧ (∀ n ∈ ns, n ≤ p.maxSize ∧ n ≤ 255) ∧
      ns.sum = t.size ∧ (t.bucketCount ≤ 2 ^ 56 → t.size ≤ p.maxTableSize t) := by
  obtain ⟨P, hP, hs, rfl, e2, e3⟩ := sep_sem h hops ht
  obtain ⟨ns, h1, h2, h3, h4, h5⟩ := fact_occupancy hP hs
  refine ⟨ns, h1, h2, fun n hn => ⟨h3 n hn, ?_⟩, h4, h5⟩
  have := h3 n hn
  unfold SepCfg.maxSize at this
  omega

/-! ## C27 -/

/-- **C27**: `capacity()` is at least `size()`. -/
theorem C27_separate_capacity (h : SepOK p hk tr W kw vw) {ops : List MapOp} (hops : ∀ op ∈ ops, SepValid hk W kw op)
    {t : Tab (SepStore KB VB) Unit} (ht : SepAfter p hk kw vw ops t) : ∃ n, p.capacity t = .ok n ∧ t.size ≤ n := by
  obtain ⟨P, hP, hs, rfl, e2, e3⟩ := sep_sem h hops ht
  exact fact_capacity hP hs

/-! ## C28 -/

/-- **C28**: the loop from `begin()` to `end()` terminates and visits each stored pair exactly once. -/
theorem C28_separate_forward (h : SepOK p hk tr W kw vw) {ops : List MapOp} (hops : ∀ op ∈ ops, SepValid hk W kw op)
    {t : Tab (SepStore KB VB) Unit} (ht : SepAfter p hk kw vw ops t) : ForwardSpec (sepMap p hk) kw t := by
  obtain ⟨P, hP, hs, rfl, e2, e3⟩ := sep_sem h hops ht
  exact fact_forward hP.laws hP.noOverflow hs

/-! ## C29 -/

/-- **C29**: on a non-empty table the loop from `rbegin_nav()` to `rend_nav()` visits the pairs in reverse order. -/
theorem C29_separate_backward (h : SepOK p hk tr W kw vw) {ops : List MapOp} (hops : ∀ op ∈ ops, SepValid hk W kw op)
    {t : Tab (SepStore KB VB) Unit} (ht : SepAfter p hk kw vw ops t) (hne : t.size ≠ 0) :
    ∃ l, t.pairs (sepMap p hk) = .ok l ∧ t.pairsBack (sepMap p hk) = .ok l.reverse := by
  obtain ⟨P, hP, hs, rfl, e2, e3⟩ := sep_sem h hops ht
  exact fact_backward hP.laws hP.noOverflow hs hne

/-! ## C30 -/

/-- **C30**: reading and erasing from `rbegin_nav()` on with `--` visits every pair exactly once and leaves the table
empty (and usable). -/
theorem C30_separate_drain (h : SepOK p hk tr W kw vw) {ops : List MapOp} (hops : ∀ op ∈ ops, SepValid hk W kw op)
    {t : Tab (SepStore KB VB) Unit} (ht : SepAfter p hk kw vw ops t) (hne : t.size ≠ 0) (ops' : List MapOp)
    (hops' : ∀ op ∈ ops', SepValid hk W kw op) :
    ∃ l t', t.pairs (sepMap p hk) = .ok l ∧ t.drainAll (sepMap p hk) = .ok (t', l.reverse) ∧ t'.size = 0 ∧
      (∀ k < 2 ^ kw, t'.lookup (sepMap p hk) k = .ok none) ∧
      ∃ t'', Tab.run (sepMap p hk) t' ops' = .ok (t'', FMap.empty.run (tr vw) ops') := by
  obtain ⟨P, hP, hs, e1, e2, e3⟩ := sep_sem h hops ht
  obtain ⟨l, t', h1, h2, h3⟩ := fact_drain hP.laws hP.noOverflow hs hne
  refine ⟨l, t', h1, h2, h3.size, ?_, ?_⟩
  · intro k hk'
    rw [h3.lookup hP.laws (by rw [e1]; exact hk')]; rfl
  · obtain ⟨l', h4, h5⟩ := h3
    obtain ⟨t'', _, h6, _⟩ := Tab.run_ok hP.laws hP.grow65 ops' h4 h5 (fun op hop => hP.opOK (hops' op hop))
    rw [e3] at h6
    exact ⟨t'', h6⟩

/-! ## C31 -/

/-- **C31** is false: after inserting one key and erasing it, `rbegin_nav()` reads out of bounds. -/
theorem C31_separate_rbegin_false :
    ¬ ∀ (ops : List MapOp) (t : Tab (SepStore PlainB PlainB) Unit), (∀ op ∈ ops, SepValid (.xorshift 16) 16 10 op) →
      SepAfter exCfg (.xorshift 16) 10 20 ops t → ∃ n, t.rbeginNav (sepMap exCfg (.xorshift 16)) = .ok n := by
  intro hall
  have hv : ∀ op ∈ [MapOp.insert 5 1, MapOp.erase 5], SepValid (.xorshift 16) 16 10 op := by decide +kernel
  have h : (match Tab.run (sepMap exCfg (.xorshift 16)) (Tab.new (sepMap exCfg (.xorshift 16)) 10 20)
      [MapOp.insert 5 1, MapOp.erase 5] with
    | .ok (t, _) => t.rbeginNav (sepMap exCfg (.xorshift 16)) == .error .oob
    | .error _ => false) = true := by decide +kernel
  obtain ⟨t, as, ht⟩ := sep_exists exOK hv
  rw [ht] at h
  obtain ⟨n, hn⟩ := hall _ t hv ⟨as, ht⟩
  simp only [hn] at h
  cases h

/-- The part of **C31** that holds, and exactly when it fails: `rbegin_nav()` is defined if and only if there are no
buckets or there is an element; on a table without buckets it equals `rend_nav()`.  Missing: tables with buckets, but without
elements, where it reads out of bounds. -/
theorem C31_separate_rbegin_partial (h : SepOK p hk tr W kw vw) {ops : List MapOp}
    (hops : ∀ op ∈ ops, SepValid hk W kw op) {t : Tab (SepStore KB VB) Unit} (ht : SepAfter p hk kw vw ops t) :
    ((∃ n, t.rbeginNav (sepMap p hk) = .ok n) ↔ (t.bucketCount = 0 ∨ t.size ≠ 0)) ∧
    (t.bucketCount = 0 → t.rbeginNav (sepMap p hk) = .ok Nav.end_) ∧
    (t.bucketCount ≠ 0 → t.size = 0 → t.rbeginNav (sepMap p hk) = .error .oob) := by
  have h2 : t.bucketCount = 0 → t.rbeginNav (sepMap p hk) = .ok Nav.end_ := by
    intro hb
    simp [Tab.rbeginNav, hb, sepTable, dummyOverflow]
  have h3 : t.bucketCount ≠ 0 → t.size = 0 → t.rbeginNav (sepMap p hk) = .error .oob := by
    intro hb he
    obtain ⟨P, hP, hs, _⟩ := sep_sem h hops ht
    exact rbegin_empty hP.laws hP.noOverflow hs (fun e => hb (by simp [Tab.bucketCount, e])) he
  refine ⟨⟨fun ⟨n, hn⟩ => ?_, fun hor => ?_⟩, h2, h3⟩
  · by_cases hb : t.bucketCount = 0
    · exact .inl hb
    · refine .inr fun he => ?_
      rw [h3 hb he] at hn
      cases hn
  · by_cases hb : t.bucketCount = 0
    · exact ⟨_, h2 hb⟩
    · obtain ⟨l, _, h5⟩ := C29_separate_backward h hops ht (by rcases hor with h | h; exact absurd h hb; exact h)
      unfold Tab.pairsBack at h5
      cases hr : t.rbeginNav (sepMap p hk) with
      | ok n => exact ⟨n, rfl⟩
      | error e => rw [hr] at h5; cases h5

/-! ## C33 -/

/-- **C33** is false for key width 1: the first insertion evaluates a shift by 255. -/
theorem C33_key_width_one_false (p : SepCfg KB VB) (hk : HashKind) (vw k v : Nat) :
    (Tab.new (sepMap p hk) 1 vw).insert (sepMap p hk) k v = .error .shift := by
  have : reserveBits 0 = .error .shift := by decide
  unfold Tab.insert depth
  rw [Tab.findOrInsert]
  simp only [Tab.new, if_true, Tab.reserveEmpty, Nat.sub_self, Nat.zero_min, this, error_bind,
    show (sepMap p hk).debug = false from rfl, ddcheck_off, ok_bind]

/-- **C33** is false for key width 2: a key that has just been inserted is not found (and the returned navigator does not
give its value). -/
theorem C33_key_width_two_false :
    ¬ ∀ (ops : List MapOp), (∀ op ∈ ops, SepValid (.xorshift 16) 16 2 op) →
      ∃ t, Tab.run (sepMap exCfg (.xorshift 16)) (Tab.new (sepMap exCfg (.xorshift 16)) 2 20) ops =
        .ok (t, FMap.empty.run (fun v => v % 2 ^ 32) ops) := by
  intro hall
  have hv : ∀ op ∈ [MapOp.insert 3 1, MapOp.find 3], SepValid (.xorshift 16) 16 2 op := by decide +kernel
  have h : (match Tab.run (sepMap exCfg (.xorshift 16)) (Tab.new (sepMap exCfg (.xorshift 16)) 2 20)
      [MapOp.insert 3 1, MapOp.find 3] with
    | .ok (_, as) => as == [.pair 3 0, .absent]
    | .error _ => false) = true := by decide +kernel
  obtain ⟨t, ht⟩ := hall _ hv
  have e : FMap.empty.run (fun v => v % 2 ^ 32) [MapOp.insert 3 1, MapOp.find 3] = [.pair 3 1, .pair 3 1] := by
    decide +kernel
  rw [ht, e] at h
  revert h
  simp

/-- The part of **C33** that holds: with buckets that store 64 bits, a table constructed with a key width from 3 to 64 behaves like a
finite map.  Missing are the widths 1 and 2, for which the claim is false. -/
theorem C33_key_widths_partial {p : SepCfg PlainB PlainB} (hp : p.kops = plainOps 64) (hv : p.vops = plainOps 64)
    (hm : 2 ≤ p.maxBucket ∧ p.maxBucket ≤ 255) {hk : HashKind}
    (hhk : hk = .xorshift 64 ∨ hk = .multiplicative 64 ∨ hk = .splitMix) {kw vw : Nat} (h3 : 3 ≤ kw) (h64 : kw ≤ 64)
    (hvw : 1 ≤ vw ∧ vw ≤ 64) (ops : List MapOp) (hops : ∀ op ∈ ops, SepValid hk 64 kw op) :
    ∃ t, Tab.run (sepMap p hk) (Tab.new (sepMap p hk) kw vw) ops = .ok (t, FMap.empty.run (fun v => v % 2 ^ 64) ops) := by
  refine C15_separate_map_semantics (tr := fun _ v => v % 2 ^ 64) (W := 64) ⟨?_, ?_, ?_, ?_, hvw.1, hvw.2⟩ ops hops
  · rw [hp]; exact .plain (by simp)
  · rw [hv]; exact .plain (by simp)
  · omega
  · rcases hhk with rfl | rfl | rfl <;> simp only [HashKind.Supports] <;> omega

/-! ## C34 -/

/-- operations of a set -/
inductive SetOp
  | insert (k : Nat) | count (k : Nat) | erase (k : Nat) | size | empty | reserve (n : Nat) | clear
  deriving DecidableEq, Repr

/-- what they answer on a set of numbers with `n` elements -/
def setRun : (Nat → Bool) → Nat → List SetOp → List Ans
  | _, _, [] => []
  | s, n, .insert k :: ops => .pair k 1 :: setRun (fun x => x == k || s x) (if s k then n else n + 1) ops
  | s, n, .count k :: ops => .num (if s k then 1 else 0) :: setRun s n ops
  | s, n, .erase k :: ops => .num (if s k then 1 else 0) :: setRun (fun x => x != k && s x) (if s k then n - 1 else n) ops
  | s, n, .size :: ops => .num n :: setRun s n ops
  | s, n, .empty :: ops => .bool (n == 0) :: setRun s n ops
  | s, n, .reserve _ :: ops => .none :: setRun s n ops
  | _, _, .clear :: ops => .none :: setRun (fun _ => false) 0 ops

/-- the calls: a key is inserted with an arbitrary value, which is ignored -/
def SetOp.call : SetOp → MapOp
  | .insert k => .insert k 0
  | .count k => .count k
  | .erase k => .erase k
  | .size => .size
  | .empty => .empty
  | .reserve n => .reserve n
  | .clear => .clear

theorem setRun_eq : ∀ (ops : List SetOp) (m : FMap), (∀ k v, m.get k = some v → v = 1) →
    m.run (fun _ => 1) (ops.map SetOp.call) = setRun (fun k => (m.get k).isSome) m.size ops := by
  intro ops
  induction ops with
  | nil => intro m _; rfl
  | cons op ops ih =>
    intro m hm
    cases op with
    | insert k =>
      cases hk : m.get k with
      | some x =>
        simp only [List.map_cons, SetOp.call, FMap.run, setRun, FMap.step, hk]
        have := hm k x hk
        subst this
        have e : (fun x => x == k || (m.get x).isSome) = fun x => (m.get x).isSome := by
          funext x
          by_cases hx : x = k
          · subst hx; simp [hk]
          · simp [hx]
        simp only [ih m hm, Option.isSome_some, if_true]
        rw [e]
      | none =>
        simp only [List.map_cons, SetOp.call, FMap.run, setRun, FMap.step, hk]
        have e : (fun x => x == k || (m.get x).isSome) = fun x => ((m.put k 1).get x).isSome := by
          funext x
          by_cases hx : x = k <;> simp [FMap.put, hx]
        have e2 : (m.put k 1).size = m.size + 1 := by simp [FMap.put, hk]
        simp only [Option.isSome_none, Bool.false_eq_true, if_false]
        rw [e, ← e2, ih (m.put k 1)]
        intro x v hx
        simp only [FMap.put] at hx
        split at hx
        · cases hx; rfl
        · exact hm x v hx
    | count k =>
      simp only [List.map_cons, SetOp.call, FMap.run, setRun, FMap.step]
      rw [ih m hm]
    | erase k =>
      have e : (fun x => x != k && (m.get x).isSome) = fun x => ((m.del k).get x).isSome := by
        funext x
        by_cases hx : x = k <;> simp [FMap.del, hx]
      simp only [List.map_cons, SetOp.call, FMap.run, setRun, FMap.step]
      rw [e, ih (m.del k)]
      · rfl
      · intro x v hx
        simp only [FMap.del] at hx
        split at hx
        · cases hx
        · exact hm x v hx
    | size =>
      simp only [List.map_cons, SetOp.call, FMap.run, setRun, FMap.step]
      rw [ih m hm]
    | empty =>
      simp only [List.map_cons, SetOp.call, FMap.run, setRun, FMap.step]
      rw [ih m hm]
    | reserve n =>
      simp only [List.map_cons, SetOp.call, FMap.run, setRun, FMap.step]
      rw [ih m hm]
    | clear =>
      simp only [List.map_cons, SetOp.call, FMap.run, setRun, FMap.step]
      rw [ih FMap.empty (by intro k v h; cases h)]
      rfl

/-- **C34**: `separate_chaining_set` behaves like a finite set. -/
theorem C34_separate_set_semantics {p : SepCfg KB Unit} (h : SepOK p hk (fun _ _ => 1) W kw vw) (_hnull : p.vops = nullOps)
    (ops : List SetOp) (hops : ∀ op ∈ ops, SepValid hk W kw op.call) :
    ∃ t, Tab.run (sepMap p hk) (Tab.new (sepMap p hk) kw vw) (ops.map SetOp.call) = .ok (t, setRun (fun _ => false) 0 ops) := by
  obtain ⟨t, ht⟩ := C15_separate_map_semantics h (ops.map SetOp.call) (by
    intro op hop
    obtain ⟨o, ho, rfl⟩ := List.mem_map.mp hop
    exact hops o ho)
  refine ⟨t, ?_⟩
  rw [ht, setRun_eq ops FMap.empty (by intro k v h; cases h)]
  rfl

example : SepOK ({ kops := avxOps 32, vops := nullOps, strat := .incremental, maxBucket := 255 } : SepCfg PlainB Unit)
    .splitMix (fun _ _ => 1) 32 32 1 where
  keys := .avx (by simp)
  vals := .null
  max := by decide
  hash := by simp [HashKind.Supports]
  vw_pos := by decide
  vw_le := by decide

/-! ## C53 -/

/-- **C53**: a navigator with an arbitrary bucket and position compares unequal to `end()` exactly if it is the one that
`find` returns for a stored key; then it gives this key and its value. -/
theorem C53_separate_navigator (h : SepOK p hk tr W kw vw) {ops : List MapOp} (hops : ∀ op ∈ ops, SepValid hk W kw op)
    {t : Tab (SepStore KB VB) Unit} (ht : SepAfter p hk kw vw ops t) : NavSpec (sepMap p hk) kw t := by
  obtain ⟨P, hP, hs, rfl, e2, e3⟩ := sep_sem h hops ht
  exact fact_nav hP.laws hP.noOverflow hs

end SC
