import Verif.Sep.Size
import Verif.Props.Debug
/-!
# The memory of the buckets: C87 - C90

`BucketMem B ops W bits need ex` (`Verif.Bucket.Memory`) lists the bucket classes with the size of their blocks.
-/
namespace SC

/-! ## Buckets of `separate_chaining_table` -/

variable {KB VB : Type} {p : SepCfg KB VB} {hk : HashKind} {tr : Nat → Nat → Nat} {W kw vw : Nat}
  {kbits : KB → Nat} {vbits : VB → Nat} {kneed vneed : Nat → Nat → Nat} {kex vex : Bool} {Wv : Nat}

/-- what is known of a table with buckets -/
theorem sep_live (h : SepOK p hk tr W kw vw) {ops : List MapOp} (hops : ∀ op ∈ ops, SepValid hk W kw op)
    {t : Tab (SepStore KB VB) Unit} (ht : SepAfter p hk kw vw ops t) :
    t.tb = 0 ∨ GoodDim W (t.dim (sepMap p hk)) ∧ t.bucketCount = 2 ^ t.tb ∧ t.store.n = 2 ^ t.tb ∧ t.kw = kw ∧ t.vw = vw := by
  obtain ⟨P, hP, hs, e1, e2, _⟩ := sep_sem h hops ht
  rcases sem_cases hP hs with ⟨h1, _⟩ | ⟨c, full, hl⟩
  · exact .inl h1
  · obtain ⟨KRep, VRep, hrep⟩ := hP.rep
    have eW : P.W = W := by obtain ⟨_, _, rfl⟩ := hP.par; rfl
    exact .inr ⟨eW ▸ hl.good hP.laws, hl.bc hP.laws, (hrep _ _ _ hl.rep).n, hl.tkw.trans e1, hl.tvw.trans e2⟩

/-- a property of buckets that is kept by the bucket functions holds after every history -/
theorem sep_keeps {er : Bool} {R : Dim → SepBucket KB VB → Prop} (K : BucketKeeps p er R) {ops : List MapOp}
    (her : er = true ∨ ∀ op ∈ ops, op.noErase = true) {t : Tab (SepStore KB VB) Unit} (ht : SepAfter p hk kw vw ops t) :
    t.tb = 0 ∨ ∀ b, R (t.dim (sepMap p hk)) (t.store.bkt b) := by
  obtain ⟨as, ht⟩ := ht
  exact K.keeps.run ops _ her (.inl rfl) _ ht

theorem SepOK.maxPos (h : SepOK p hk tr W kw vw) : 1 ≤ p.maxSize := by
  have := h.max
  unfold SepCfg.maxSize; omega

theorem SepOK.findEmpty (h : SepOK p hk tr W kw vw) (b : KB) (q w : Nat) : p.kops.find b q 0 w = .ok NPOS := by
  obtain ⟨_, _, _, h2, _⟩ := h.keys.lawful
  exact h2.find_empty b w q

/-- blocks, sizes and capacities after any history -/
theorem sep_memOK (h : SepOK p hk tr W kw vw) (hK : BucketMem KB p.kops W kbits kneed kex) (hV : BucketMem VB p.vops Wv vbits vneed vex)
    {ops : List MapOp} (hops : ∀ op ∈ ops, SepValid hk W kw op) {t : Tab (SepStore KB VB) Unit} (ht : SepAfter p hk kw vw ops t) :
    t.tb = 0 ∨ ∀ b, MemOK p kneed vneed kex vex (t.dim (sepMap p hk)) (kbits (t.store.bkt b).keys) (vbits (t.store.bkt b).vals)
      (t.store.bkt b).size (t.store.bkt b).cap := by
  rcases sep_live h hops ht with h0 | ⟨hg, _⟩
  · exact .inl h0
  · refine (sep_keeps (keeps_memOK hK.sized hV.sized h.maxPos h.findEmpty) (.inl rfl) ht).imp_right ?_
    intro hb b
    exact hb b hg.qw_le

theorem sep_get {t : Tab (SepStore KB VB) Unit} (hn : t.store.n = 2 ^ t.tb) {b : Nat} (hb : b < 2 ^ t.tb) :
    t.store.get b = .ok (t.store.bkt b) := by
  unfold SepStore.get; rw [hn, if_pos hb]

/-! ## C87 -/

/-- the blocks of a bucket with `x.size` entries are exactly as large as needed -/
def Exact (kbits : KB → Nat) (vbits : VB → Nat) (kneed vneed : Nat → Nat → Nat) (qw vw : Nat) (x : SepBucket KB VB) : Prop :=
  kbits x.keys = (if x.size = 0 then 0 else kneed x.size qw) ∧ vbits x.vals = (if x.size = 0 then 0 else vneed x.size vw)

/-- **C87** for values, and for keys in `plain_bucket`, `class_bucket`, `avx2_bucket` (`kex = true`): with `incremental_resize` and
without erasures, every block is exactly as large as needed.  A block of keys in a `varwidth_bucket` is as large as needed or as the first
allocation, whose size is computed with the width of the keys instead of the width of the quotients. -/
theorem C87_incremental_memory_partial (h : SepOK p hk tr W kw vw) (hst : p.strat = .incremental)
    (hK : BucketMem KB p.kops W kbits kneed kex) (hV : BucketMem VB p.vops Wv vbits vneed vex) {ops : List MapOp}
    (hops : ∀ op ∈ ops, SepValid hk W kw op) (hne : ∀ op ∈ ops, op.noErase = true) {t : Tab (SepStore KB VB) Unit}
    (ht : SepAfter p hk kw vw ops t) :
    ∀ b < t.bucketCount, ∃ x, t.store.get b = .ok x ∧
      (kex = true → Exact kbits vbits kneed vneed ((t.hash (sepMap p hk)).remainderWidth t.tb) vw x) ∧
      vbits x.vals = (if x.size = 0 then 0 else vneed x.size vw) ∧ (x.size = 0 → kbits x.keys = 0) ∧
      (x.size ≠ 0 → kneed x.size ((t.hash (sepMap p hk)).remainderWidth t.tb) ≤ kbits x.keys ∧
        kbits x.keys ≤ max (kneed x.size ((t.hash (sepMap p hk)).remainderWidth t.tb)) (kneed 1 kw)) := by
  intro b hb
  rcases sep_live h hops ht with h0 | ⟨hg, hbc, hn, e1, e2⟩
  · simp [Tab.bucketCount, h0] at hb
  · rw [hbc] at hb
    have htb : t.tb ≠ 0 := by have := hg.tb_pos; simp only [Tab.dim] at this; omega
    have hm := ((sep_keeps (keeps_tight hK.sized hV.sized hst) (.inr hne) ht).resolve_left htb b hg.qw_le).2
    have e3 : (t.dim (sepMap p hk)).vw = vw := e2
    have e4 : (t.dim (sepMap p hk)).kw = kw := e1
    have hv : vbits (t.store.bkt b).vals = (if (t.store.bkt b).size = 0 then 0 else vneed (t.store.bkt b).size vw) := by
      split
      · exact (hm.zero ‹_›).2
      · rw [← e3]; exact hm.vals ‹_›
    refine ⟨_, sep_get hn hb, ?_, hv, fun h0 => (hm.zero h0).1, ?_⟩
    · intro hex
      refine ⟨?_, hv⟩
      split
      · exact (hm.zero ‹_›).1
      · obtain ⟨k1, k2⟩ := hm.keys ‹_›
        have e5 := hK.sized.flat hex 1 (t.dim (sepMap p hk)).kw (t.dim (sepMap p hk)).qw
        have e6 : kneed 1 (t.dim (sepMap p hk)).qw ≤ kneed (t.store.bkt b).size (t.dim (sepMap p hk)).qw :=
          hK.sized.mono (by omega) (Nat.le_refl _)
        show _ = kneed _ (t.dim (sepMap p hk)).qw
        omega
    · intro h0
      have := hm.keys h0
      rw [e4] at this
      exact this

/-- 10-bit keys in `plain_bucket<uint16_t>`, `incremental_resize` -/
def incCfg : SepCfg PlainB PlainB := { exCfg with strat := .incremental }

theorem incOK : SepOK incCfg (.xorshift 16) (fun _ v => v % 2 ^ 32) 16 10 20 := { exOK with }

/-- a history without erasure -/
def incOps : List MapOp := (List.range 60).map (fun i => .insert (17 * i) (1000 + i)) ++ [.assign 34 7, .shrink, .reserve 128, .get 1023]

example : ∃ t, SepAfter incCfg (.xorshift 16) 10 20 incOps t ∧ ∀ b < t.bucketCount, ∃ x, t.store.get b = .ok x ∧
    Exact (cellBits 16) (cellBits 32) (fun n _ => 16 * n) (fun n _ => 32 * n) ((t.hash (sepMap incCfg (.xorshift 16))).remainderWidth t.tb) 20 x := by
  have hv : ∀ op ∈ incOps, SepValid (.xorshift 16) 16 10 op := by decide +kernel
  obtain ⟨t, ht⟩ := sep_exists incOK hv
  refine ⟨t, ht, fun b hb => ?_⟩
  obtain ⟨x, h1, h2, _⟩ := C87_incremental_memory_partial incOK rfl (.plain 16) (.plain 32) hv (by decide +kernel) ht b hb
  exact ⟨x, h1, h2 rfl⟩

/-- `varwidth_bucket<uint8_t>` for 20-bit keys and values of 8 bits -/
def varInc : SepCfg VarB VarB := { kops := varOps ⟨8, false, fun _ => false⟩, vops := varOps ⟨8, false, fun _ => false⟩, strat := .incremental, maxBucket := 255 }

theorem varIncOK : SepOK varInc (.xorshift 64) (fun w v => v % 2 ^ w) 64 20 8 where
  keys := .varwidth ⟨.inl rfl, .inl rfl⟩ rfl
  vals := .varwidth ⟨.inl rfl, .inl rfl⟩ rfl
  max := by decide
  hash := by simp only [HashKind.Supports]; omega
  vw_pos := by decide
  vw_le := by decide

/-- **C87** is false for `varwidth_bucket`: the block of a bucket with one key has 3 bytes, although the quotient has 16 bits. -/
theorem C87_incremental_memory_false : ¬ ∀ (ops : List MapOp) (t : Tab (SepStore VarB VarB) Unit),
    (∀ op ∈ ops, SepValid (.xorshift 64) 64 20 op) → (∀ op ∈ ops, op.noErase = true) → SepAfter varInc (.xorshift 64) 20 8 ops t →
    ∀ b < t.bucketCount, ∃ x, t.store.get b = .ok x ∧
      Exact blockBits blockBits (fun n w => (n * w + 8 - 1) / 8 * 8) (fun n w => (n * w + 8 - 1) / 8 * 8)
        ((t.hash (sepMap varInc (.xorshift 64))).remainderWidth t.tb) 8 x := by
  intro H
  have hrun : (match Tab.run (sepMap varInc (.xorshift 64)) (Tab.new (sepMap varInc (.xorshift 64)) 20 8) [.insert 1 1] with
    | .ok (t, _) => (List.range t.bucketCount).any (fun b => match t.store.get b with
      | .ok x => x.size == 1 && blockBits x.keys == 24 && (t.hash (sepMap varInc (.xorshift 64))).remainderWidth t.tb == 16
      | .error _ => false)
    | .error _ => false) = true := by decide +kernel
  have hv : ∀ op ∈ [MapOp.insert 1 1], SepValid (.xorshift 64) 64 20 op := by decide +kernel
  obtain ⟨t, as, ht⟩ := sep_exists varIncOK hv
  rw [ht] at hrun
  simp only [List.any_eq_true, List.mem_range] at hrun
  obtain ⟨b, hb, hx⟩ := hrun
  obtain ⟨x, h1, h2, _⟩ := H _ t hv (by decide) ⟨as, ht⟩ b hb
  simp only [h1, Bool.and_eq_true, beq_iff_eq] at hx
  obtain ⟨⟨g1, g2⟩, g3⟩ := hx
  rw [g2, g1, g3] at h2
  revert h2
  decide

/-! ## C88 -/

/-- **C88** for `plain_bucket`, `class_bucket` and `avx2_bucket` (`kex = true`, `vex = true`; sets included): after `shrink_to_fit()` every
block is exactly as large as needed, whatever happened before. -/
theorem C88_shrink_memory_partial (h : SepOK p hk tr W kw vw) (hK : BucketMem KB p.kops W kbits kneed true)
    (hV : BucketMem VB p.vops Wv vbits vneed true) {ops : List MapOp} (hops : ∀ op ∈ ops, SepValid hk W kw op)
    {t : Tab (SepStore KB VB) Unit} (ht : SepAfter p hk kw vw (ops ++ [.shrink]) t) :
    ∀ b < t.bucketCount, ∃ x, t.store.get b = .ok x ∧
      Exact kbits vbits kneed vneed ((t.hash (sepMap p hk)).remainderWidth t.tb) vw x := by
  intro b hb
  have hops' : ∀ op ∈ ops ++ [.shrink], SepValid hk W kw op := by
    intro op hop
    rcases List.mem_append.mp hop with hop | hop
    · exact hops op hop
    · rw [List.mem_singleton.mp hop]; exact trivial
  -- the table before `shrink_to_fit()`
  obtain ⟨t0, ht0⟩ := sep_exists h hops
  have hrun : ∃ as as', Tab.run (sepMap p hk) (Tab.new (sepMap p hk) kw vw) ops = .ok (t0, as) ∧
      t0.shrink (sepMap p hk) = .ok t ∧ as' = as := by
    obtain ⟨as0, h0⟩ := ht0
    obtain ⟨as, hr⟩ := ht
    rw [Tab.run_append _ _ _ h0] at hr
    refine ⟨as0, as0, h0, ?_, rfl⟩
    simp only [ok_bind, Tab.run, Tab.step] at hr
    cases hs : t0.shrink (sepMap p hk) with
    | error e => rw [hs] at hr; cases hr
    | ok t' =>
      rw [hs] at hr
      have := Except.ok.inj hr
      exact congrArg Except.ok (congrArg Prod.fst this)
  obtain ⟨_, _, _, hsh, _⟩ := hrun
  rcases sep_live h hops ht0 with h0 | ⟨hg, hbc, hn, e1, e2⟩
  · have e : t = t0 := by simp only [Tab.shrink, h0, if_true, pure_eq_ok, Except.ok.injEq] at hsh; exact hsh.symm
    subst e
    simp [Tab.bucketCount, h0] at hb
  · have htb : t0.tb ≠ 0 := by have := hg.tb_pos; simp only [Tab.dim] at this; omega
    have hm := (sep_memOK h hK hV hops ht0).resolve_left htb
    have hf := shrink_fold_fit (hk := hk) (ov := dummyOverflow) hK.sized hV.sized
      (d := t0.dim (sepMap p hk)) (fun x hx y hy =>
        (keeps_memOK hK.sized hV.sized h.maxPos h.findEmpty).shrink _ x (fun _ => hx) y hy hg.qw_le)
      (List.range t0.bucketCount) t0 rfl hm t (by simpa only [Tab.shrink, if_neg htb] using hsh)
    obtain ⟨f1, f2, f3⟩ := hf
    rcases sep_live h hops' ht with h0 | ⟨hg', hbc', hn', e1', e2'⟩
    · simp [Tab.bucketCount, h0] at hb
    · rw [hbc'] at hb
      have etb : t.tb = t0.tb := congrArg Dim.tb f1
      have hc := f3 b (.inl (by rw [hbc, ← etb]; exact List.mem_range.mpr hb))
      have hM := f2 b
      rw [hc] at hM
      refine ⟨_, sep_get hn' hb, ?_⟩
      have e3 : (t0.dim (sepMap p hk)).vw = vw := e2
      have e4 : (t.dim (sepMap p hk)).qw = (t0.dim (sepMap p hk)).qw := congrArg Dim.qw f1
      show Exact kbits vbits kneed vneed (t.dim (sepMap p hk)).qw vw _
      rw [e4, ← e3]
      constructor
      · split
        · exact (hM.zero ‹_›).1
        · exact hM.kex ‹_› rfl
      · split
        · exact (hM.zero ‹_›).2.1
        · exact hM.vex ‹_› rfl

example : ∃ t, SepAfter exCfg (.xorshift 16) 10 20 (exOps ++ [.shrink]) t ∧ ∀ b < t.bucketCount, ∃ x, t.store.get b = .ok x ∧
    Exact (cellBits 16) (cellBits 32) (fun n _ => 16 * n) (fun n _ => 32 * n) ((t.hash (sepMap exCfg (.xorshift 16))).remainderWidth t.tb) 20 x := by
  have hv : ∀ op ∈ exOps ++ [.shrink], SepValid (.xorshift 16) 16 10 op := by
    intro op hop
    rcases List.mem_append.mp hop with hop | hop
    · exact exOps_valid op hop
    · rw [List.mem_singleton.mp hop]; exact trivial
  obtain ⟨t, ht⟩ := sep_exists exOK hv
  exact ⟨t, ht, C88_shrink_memory_partial exOK (.plain 16) (.plain 32) exOps_valid ht⟩

/-- twenty insertions and nineteen erasures -/
def shrinkOps : List MapOp := (List.range 20).map (fun i => .insert (16 * i) i) ++ (List.range 19).map (fun i => .erase (16 * i))

/-- **C88** is false for `varwidth_bucket`: the block of a bucket with one entry keeps more than twice the number of bits needed. -/
theorem C88_shrink_memory_false : ¬ ∀ (ops : List MapOp) (t : Tab (SepStore VarB VarB) Unit),
    (∀ op ∈ ops, SepValid (.xorshift 64) 64 20 op) → SepAfter varInc (.xorshift 64) 20 8 (ops ++ [.shrink]) t →
    ∀ b < t.bucketCount, ∃ x, t.store.get b = .ok x ∧ blockBits x.keys ≤ 2 * ((x.size * 20 + 8 - 1) / 8 * 8) := by
  intro H
  have hrun : (match Tab.run (sepMap varInc (.xorshift 64)) (Tab.new (sepMap varInc (.xorshift 64)) 20 8) (shrinkOps ++ [.shrink]) with
    | .ok (t, _) => (List.range t.bucketCount).any (fun b => match t.store.get b with
      | .ok x => x.size == 1 && decide (48 < blockBits x.keys)
      | .error _ => false)
    | .error _ => false) = true := by decide +kernel
  have hv : ∀ op ∈ shrinkOps, SepValid (.xorshift 64) 64 20 op := by decide +kernel
  have hv' : ∀ op ∈ shrinkOps ++ [.shrink], SepValid (.xorshift 64) 64 20 op := by decide +kernel
  obtain ⟨t, as, ht⟩ := sep_exists varIncOK hv'
  rw [ht] at hrun
  simp only [List.any_eq_true, List.mem_range] at hrun
  obtain ⟨b, hb, hx⟩ := hrun
  obtain ⟨x, h1, h2⟩ := H _ t hv ⟨as, ht⟩ b hb
  simp only [h1, Bool.and_eq_true, beq_iff_eq, decide_eq_true_eq] at hx
  rw [hx.1] at h2
  omega

/-! ## C89 -/

/-- rounding up to multiples of at most 64 -/
theorem ceil_round {a K : Nat} (hK : 0 < K) (hK' : K ≤ 64) : ceilDiv a K * K ≤ a + 63 := by
  unfold ceilDiv
  have := Nat.div_mul_le_self (a + K - 1) K
  omega

/-- **C89**, the part that is true: if values have a fixed number of bits (`hv`), then `size_in_bytes()` is at least what the entries need, and
not more than what the table uses.  For sets with `arbitrary_resize` the keys must be stored with the size of their type. -/
theorem C89_size_in_bytes_partial (h : SepOK p hk tr W kw vw) {z : Sizeof} {keyBits valueBits : Nat} (hz : z.For p.strat keyBits valueBits)
    (hkb : 0 < keyBits) (hkb' : keyBits ≤ 64) (hK : BucketMem KB p.kops W kbits kneed kex) (hV : BucketMem VB p.vops Wv vbits vneed vex)
    (hv : ∀ n w, vneed n w = valueBits * n)
    (hset : valueBits = 0 → p.strat = .incremental ∨ ∀ n w, kneed n w = keyBits * n)
    {ops : List MapOp} (hops : ∀ op ∈ ops, SepValid hk W kw op) {t : Tab (SepStore KB VB) Unit} (ht : SepAfter p hk kw vw ops t)
    (hmem : p.usedBits kbits vbits z t < 8 * 2 ^ 64) :
    ∃ n, p.sizeInBytes (sepMap p hk) z t = .ok n ∧ 8 * n ≤ p.usedBits kbits vbits z t ∧
      8 * z.members + t.size * ((t.hash (sepMap p hk)).remainderWidth t.tb + valueBits) ≤ 8 * n := by
  obtain ⟨P, hP, hs, _⟩ := sep_sem h hops ht
  obtain ⟨ns, hns, _, _, hsum, _⟩ := fact_occupancy hP hs
  have hn : t.bucketCount ≤ t.store.n := by
    rcases sem_cases hP hs with ⟨h1, _⟩ | ⟨c, full, hl⟩
    · simp [Tab.bucketCount, h1]
    · obtain ⟨KRep, VRep, hrep⟩ := hP.rep
      rw [hl.bc hP.laws, (hrep _ _ _ hl.rep).n]
      exact Nat.le_refl _
  have hsum' : ((List.range t.bucketCount).map (fun b => (t.store.bkt b).size)).sum = t.size := by
    unfold sepBucketSizes at hns
    rw [mapM_ok (h := fun b => (t.store.bkt b).size)] at hns
    · rw [Except.ok.inj hns]; exact hsum
    · intro b hb
      have : t.store.get b = .ok (t.store.bkt b) := by unfold SepStore.get; rw [if_pos (Nat.lt_of_lt_of_le (List.mem_range.mp hb) hn)]
      rw [this]; rfl
  have eK : z.key * 8 = keyBits := by rw [Nat.mul_comm]; exact hz.key
  rw [sizeInBytes_eq rfl hn]
  generalize hq : (t.dim (sepMap p hk)).qw = qw
  have hq' : (t.hash (sepMap p hk)).remainderWidth t.tb = qw := hq
  rw [hq']
  generalize hS : ((List.range t.bucketCount).map (fun b => ceilDiv ((t.store.bkt b).size * qw) (z.key * 8) * z.key +
        z.value * (t.store.bkt b).size)).sum = S
  -- eight times the sum
  have h8 : 8 * S = ((List.range t.bucketCount).map (fun b => ceilDiv ((t.store.bkt b).size * qw) keyBits * keyBits +
        valueBits * (t.store.bkt b).size)).sum := by
    rw [← hS, ← sum_map_mul]
    congr 2
    funext b
    rw [Nat.mul_add, eK, Nat.mul_left_comm, hz.key, ← Nat.mul_assoc, hz.value]
  have hlow : t.size * (qw + valueBits) ≤ 8 * S := by
    rw [h8, ← hsum', Nat.mul_comm, ← sum_map_mul]
    refine sum_map_le fun b _ => ?_
    have := ceilDiv_mul_ge ((t.store.bkt b).size * qw) hkb
    rw [Nat.add_mul, Nat.mul_comm qw]
    rw [Nat.mul_comm keyBits] at this
    omega
  have hup : 8 * z.strategy * t.bucketCount + 8 * S ≤ t.bucketCount * (64 + 8 * z.valueBucket + 8 + p.strat.capBits) +
      ((List.range t.bucketCount).map (fun b => kbits (t.store.bkt b).keys + vbits (t.store.bkt b).vals)).sum := by
    have e : ∀ k, t.bucketCount * k = (List.range t.bucketCount).length * k := by intro k; rw [List.length_range]
    rw [Nat.mul_comm, e, e, h8, ← sum_map_add_const, ← sum_map_add_const]
    refine sum_map_le fun b hb => ?_
    rcases sep_live h hops ht with h0 | ⟨hg, hbc, hn', e1, e2⟩
    · simp [Tab.bucketCount, h0] at hb
    · have htb : t.tb ≠ 0 := by have := hg.tb_pos; simp only [Tab.dim] at this; omega
      have hm := (sep_memOK h hK hV hops ht).resolve_left htb b
      have hqW := hg.qw_le_W
      rw [hq] at hqW
      obtain ⟨_, _, mcap, mkeys, mvals, _, _⟩ := hm
      rw [hq] at mkeys
      generalize (t.store.bkt b).size = n at *
      generalize (t.store.bkt b).cap = cap at *
      generalize kbits (t.store.bkt b).keys = kb at *
      generalize vbits (t.store.bkt b).vals = vb at *
      have hval : valueBits * n ≤ vb := by
        by_cases h0 : n = 0
        · simp [h0]
        · have h1 := mvals h0
          rw [hv] at h1
          exact Nat.le_trans (Nat.mul_le_mul_left _ mcap) h1
      have hkey : n * qw ≤ kb := by
        by_cases h0 : n = 0
        · simp [h0]
        · exact Nat.le_trans (Nat.le_trans (hK.fits hqW) (hK.sized.mono mcap (Nat.le_refl _))) (mkeys h0)
      have hr := ceil_round (a := n * qw) hkb hkb'
      have hstr := hz.strategy
      have hbu := hz.bucket
      cases hst : p.strat with
      | incremental =>
        rw [hst] at hstr
        simp only [Strategy.capBits] at *
        omega
      | arbitrary =>
        rw [hst] at hstr
        simp only [Strategy.capBits] at *
        by_cases hz0 : valueBits = 0
        · rw [if_pos hz0] at hbu
          rcases hset hz0 with h1 | h1
          · rw [h1] at hst; cases hst
          · have : ceilDiv (n * qw) keyBits * keyBits ≤ kb := by
              by_cases h0 : n = 0
              · subst h0
                have : ceilDiv 0 keyBits = 0 := by unfold ceilDiv; exact Nat.div_eq_of_lt (by omega)
                rw [Nat.zero_mul, this]; simp
              · have h2 := mkeys h0
                have h3 := hK.fits (n := n) hqW
                rw [h1] at h2 h3
                have h4 : ceilDiv (n * qw) keyBits ≤ n := ceilDiv_le_of hkb h3
                have h5 := Nat.mul_le_mul_right keyBits (Nat.le_trans h4 mcap)
                rw [Nat.mul_comm keyBits] at h2
                omega
            omega
        · rw [if_neg hz0] at hbu
          omega
  have hX : 8 * (z.strategy * t.bucketCount + z.members + S) ≤ p.usedBits kbits vbits z t := by
    unfold SepCfg.usedBits
    have e : 8 * (z.strategy * t.bucketCount + z.members + S) = 8 * z.members + (8 * z.strategy * t.bucketCount + 8 * S) := by
      rw [Nat.mul_assoc]; omega
    omega
  refine ⟨_, rfl, ?_, ?_⟩
  · rw [Nat.mod_eq_of_lt (by show _ < 2 ^ 64; omega)]; exact hX
  · rw [Nat.mod_eq_of_lt (by show _ < 2 ^ 64; omega)]; omega

/-- `sizeof` of the types of `exCfg`: 16-bit keys, 32-bit values -/
def exSizeof : Sizeof := { key := 2, value := 4, strategy := 8, members := 40, valueBucket := 8 }

theorem exSizeof_for : exSizeof.For exCfg.strat 16 32 := ⟨rfl, rfl, rfl, rfl⟩

example : ∃ t n, SepAfter exCfg (.xorshift 16) 10 20 exOps t ∧ exCfg.sizeInBytes (sepMap exCfg (.xorshift 16)) exSizeof t = .ok n ∧
    8 * n ≤ exCfg.usedBits (cellBits 16) (cellBits 32) exSizeof t ∧ 320 + t.size * 32 ≤ 8 * n ∧ 0 < t.size := by
  have hrun : (match Tab.run (sepMap exCfg (.xorshift 16)) (Tab.new (sepMap exCfg (.xorshift 16)) 10 20) exOps with
    | .ok (t, _) => decide (exCfg.usedBits (cellBits 16) (cellBits 32) exSizeof t < 8 * 2 ^ 64) && decide (0 < t.size)
    | .error _ => false) = true := by decide +kernel
  obtain ⟨t, as, ht⟩ := sep_exists exOK exOps_valid
  rw [ht] at hrun
  simp only [Bool.and_eq_true, decide_eq_true_eq] at hrun
  obtain ⟨n, h1, h2, h3⟩ := C89_size_in_bytes_partial exOK exSizeof_for (by decide) (by decide) (.plain 16) (.plain 32) (fun _ _ => rfl)
    (fun h => by cases h) exOps_valid ⟨as, ht⟩ hrun.1
  refine ⟨t, n, ⟨as, ht⟩, h1, h2, ?_, hrun.2⟩
  refine Nat.le_trans (Nat.add_le_add_left (Nat.mul_le_mul_left _ (Nat.le_add_left _ _)) _) h3

/-- The memory of a table in bits, in terms of its elements: a map whose entries have fixed sizes, after `shrink_to_fit()`.  Every bucket takes two
pointers, a byte for its size and, with `arbitrary_resize`, a byte for its capacity. -/
theorem C89_memory_after_shrink (h : SepOK p hk tr W kw vw) {z : Sizeof} {keyBits valueBits : Nat} (hz : z.For p.strat keyBits valueBits)
    (hvb : 0 < valueBits) (hK : BucketMem KB p.kops W kbits kneed true) (hV : BucketMem VB p.vops Wv vbits vneed true)
    (hk' : ∀ n w, kneed n w = keyBits * n) (hv : ∀ n w, vneed n w = valueBits * n)
    {ops : List MapOp} (hops : ∀ op ∈ ops, SepValid hk W kw op) {t : Tab (SepStore KB VB) Unit}
    (ht : SepAfter p hk kw vw (ops ++ [.shrink]) t) :
    p.usedBits kbits vbits z t = 8 * (z.members + z.strategy) +
      t.bucketCount * (match p.strat with | .incremental => 136 | .arbitrary => 144) + t.size * (keyBits + valueBits) := by
  have hops' : ∀ op ∈ ops ++ [.shrink], SepValid hk W kw op := by
    intro op hop
    rcases List.mem_append.mp hop with hop | hop
    · exact hops op hop
    · rw [List.mem_singleton.mp hop]; exact trivial
  have hex := C88_shrink_memory_partial h hK hV hops ht
  obtain ⟨P, hP, hs, _⟩ := sep_sem h hops' ht
  obtain ⟨ns, hns, _, _, hsum, _⟩ := fact_occupancy hP hs
  have hget : ∀ b ∈ List.range t.bucketCount, t.store.get b = .ok (t.store.bkt b) := by
    intro b hb
    obtain ⟨x, hx, _⟩ := hex b (List.mem_range.mp hb)
    unfold SepStore.get at hx ⊢
    split at hx
    · rw [if_pos ‹_›]
    · cases hx
  have hsum' : ((List.range t.bucketCount).map (fun b => (t.store.bkt b).size)).sum = t.size := by
    unfold sepBucketSizes at hns
    rw [mapM_ok (h := fun b => (t.store.bkt b).size)] at hns
    · rw [Except.ok.inj hns]; exact hsum
    · intro b hb
      rw [hget b hb]; rfl
  have hblocks : ((List.range t.bucketCount).map (fun b => kbits (t.store.bkt b).keys + vbits (t.store.bkt b).vals)).sum =
      t.size * (keyBits + valueBits) := by
    rw [← hsum', Nat.mul_comm, ← sum_map_mul]
    refine congrArg List.sum (List.map_congr_left fun b hb => ?_)
    obtain ⟨x, hx, h1, h2⟩ := hex b (List.mem_range.mp hb)
    rw [hget b hb] at hx
    cases hx
    rw [h1, h2, hk', hv, Nat.add_mul]
    split
    · rename_i h0; simp [h0]
    · rfl
  have hbu : z.valueBucket = 8 := by rw [hz.bucket, if_neg (by omega)]
  unfold SepCfg.usedBits
  rw [hblocks, hbu]
  cases p.strat <;> simp only [Strategy.capBits] <;> omega

example : ∃ t, SepAfter exCfg (.xorshift 16) 10 20 (exOps ++ [.shrink]) t ∧ 0 < t.size ∧
    exCfg.usedBits (cellBits 16) (cellBits 32) exSizeof t = 384 + t.bucketCount * 144 + t.size * 48 := by
  have hv : ∀ op ∈ exOps ++ [.shrink], SepValid (.xorshift 16) 16 10 op := by
    intro op hop
    rcases List.mem_append.mp hop with hop | hop
    · exact exOps_valid op hop
    · rw [List.mem_singleton.mp hop]; exact trivial
  have hrun : (match Tab.run (sepMap exCfg (.xorshift 16)) (Tab.new (sepMap exCfg (.xorshift 16)) 10 20) (exOps ++ [.shrink]) with
    | .ok (t, _) => decide (0 < t.size)
    | .error _ => false) = true := by decide +kernel
  obtain ⟨t, as, ht⟩ := sep_exists exOK hv
  rw [ht] at hrun
  exact ⟨t, ⟨as, ht⟩, by simpa using hrun, C89_memory_after_shrink exOK exSizeof_for (by decide) (.plain 16) (.plain 32)
    (fun _ _ => rfl) (fun _ _ => rfl) exOps_valid ⟨as, ht⟩⟩

/-- **C89** is false: the arrays of buckets and sizes are not counted. -/
theorem C89_size_in_bytes_false : ¬ ∀ (ops : List MapOp) (t : Tab (SepStore PlainB PlainB) Unit),
    (∀ op ∈ ops, SepValid (.xorshift 16) 16 10 op) → SepAfter exCfg (.xorshift 16) 10 20 ops t →
    ∃ n, exCfg.sizeInBytes (sepMap exCfg (.xorshift 16)) exSizeof t = .ok n ∧
      8 * n = exCfg.usedBits (cellBits 16) (cellBits 32) exSizeof t := by
  intro H
  have hrun : (match Tab.run (sepMap exCfg (.xorshift 16)) (Tab.new (sepMap exCfg (.xorshift 16)) 10 20) [.insert 1 1] with
    | .ok (t, _) => (match exCfg.sizeInBytes (sepMap exCfg (.xorshift 16)) exSizeof t with
      | .ok n => decide (8 * n ≠ exCfg.usedBits (cellBits 16) (cellBits 32) exSizeof t)
      | .error _ => false)
    | .error _ => false) = true := by decide +kernel
  have hv : ∀ op ∈ [MapOp.insert 1 1], SepValid (.xorshift 16) 16 10 op := by decide +kernel
  obtain ⟨t, as, ht⟩ := sep_exists exOK hv
  obtain ⟨n, h1, h2⟩ := H _ t hv ⟨as, ht⟩
  rw [ht] at hrun
  simp only [h1, h2, ne_eq, not_true_eq_false, decide_false] at hrun
  cases hrun

/-- `sizeof` of the types of `varInc`: `key_type` and `value_type` are `uint64_t` -/
def varSizeof : Sizeof := { key := 8, value := 8, strategy := 1, members := 40, valueBucket := 8 }

/-- With values in `varwidth_bucket`, `size_in_bytes()` may also exceed the memory used: each value counts with 8 bytes. -/
theorem C89_size_in_bytes_over : ¬ ∀ (ops : List MapOp) (t : Tab (SepStore VarB VarB) Unit),
    (∀ op ∈ ops, SepValid (.xorshift 64) 64 20 op) → SepAfter varInc (.xorshift 64) 20 8 ops t →
    ∃ n, varInc.sizeInBytes (sepMap varInc (.xorshift 64)) varSizeof t = .ok n ∧ 8 * n ≤ varInc.usedBits blockBits blockBits varSizeof t := by
  intro H
  have hrun : (match Tab.run (sepMap varInc (.xorshift 64)) (Tab.new (sepMap varInc (.xorshift 64)) 20 8)
      ((List.range 60).map (fun i => .insert i i)) with
    | .ok (t, _) => (match varInc.sizeInBytes (sepMap varInc (.xorshift 64)) varSizeof t with
      | .ok n => decide (varInc.usedBits blockBits blockBits varSizeof t < 8 * n)
      | .error _ => false)
    | .error _ => false) = true := by decide +kernel
  have hv : ∀ op ∈ (List.range 60).map (fun i => MapOp.insert i i), SepValid (.xorshift 64) 64 20 op := by decide +kernel
  obtain ⟨t, as, ht⟩ := sep_exists varIncOK hv
  obtain ⟨n, h1, h2⟩ := H _ t hv ⟨as, ht⟩
  rw [ht] at hrun
  simp only [h1, decide_eq_true_eq] at hrun
  omega

/-! ## C90 -/

/-- a block for twice as many entries is at most twice as large -/
theorem BucketMem.double {B : Type} {ops : BucketOps B} {bits : B → Nat} {need : Nat → Nat → Nat} (h : BucketMem B ops W bits need true)
    (n w : Nat) : need (2 * n) w = 2 * need n w := by
  cases h with
  | plain => exact Nat.mul_left_comm _ _ _
  | «class» => exact Nat.mul_left_comm _ _ _
  | avx => exact Nat.mul_left_comm _ _ _
  | null => rfl

/-- **C90**: without erasures, at most half of every block is unused, with both strategies, for `plain_bucket`, `class_bucket` and
`avx2_bucket` (the last argument of `BucketMem` is set; sets included). -/
theorem C90_half_memory (h : SepOK p hk tr W kw vw) (hK : BucketMem KB p.kops W kbits kneed true) (hV : BucketMem VB p.vops Wv vbits vneed true)
    {ops : List MapOp} (hops : ∀ op ∈ ops, SepValid hk W kw op) (hne : ∀ op ∈ ops, op.noErase = true) {t : Tab (SepStore KB VB) Unit}
    (ht : SepAfter p hk kw vw ops t) :
    ∀ b < t.bucketCount, ∃ x, t.store.get b = .ok x ∧
      kbits x.keys ≤ 2 * kneed x.size ((t.hash (sepMap p hk)).remainderWidth t.tb) ∧ vbits x.vals ≤ 2 * vneed x.size vw := by
  intro b hb
  rcases sep_live h hops ht with h0 | ⟨hg, hbc, hn, e1, e2⟩
  · simp [Tab.bucketCount, h0] at hb
  · rw [hbc] at hb
    have htb : t.tb ≠ 0 := by have := hg.tb_pos; simp only [Tab.dim] at this; omega
    have hm := (sep_memOK h hK hV hops ht).resolve_left htb b
    have hc := ((sep_keeps (keeps_half hK.sized hV.sized) (.inr hne) ht).resolve_left htb b).2
    have e3 : (t.dim (sepMap p hk)).vw = vw := e2
    refine ⟨_, sep_get hn hb, ?_⟩
    by_cases h0 : (t.store.bkt b).size = 0
    · rw [(hm.zero h0).1, (hm.zero h0).2.1]; exact ⟨Nat.zero_le _, Nat.zero_le _⟩
    · rw [hm.kex h0 rfl, hm.vex h0 rfl, e3, ← hK.double, ← hV.double]
      exact ⟨hK.sized.mono hc (Nat.le_refl _), hV.sized.mono hc (Nat.le_refl _)⟩

example : ∃ t, SepAfter exCfg (.xorshift 16) 10 20 incOps t ∧ ∀ b < t.bucketCount, ∃ x, t.store.get b = .ok x ∧
    cellBits 16 x.keys ≤ 2 * (16 * x.size) ∧ cellBits 32 x.vals ≤ 2 * (32 * x.size) := by
  have hv : ∀ op ∈ incOps, SepValid (.xorshift 16) 16 10 op := by decide +kernel
  obtain ⟨t, ht⟩ := sep_exists exOK hv
  exact ⟨t, ht, C90_half_memory exOK (.plain 16) (.plain 32) hv (by decide +kernel) ht⟩

end SC
