import Verif.Props.CapOv
import Verif.Props.ArrayTable
/-!
# C130: `size_in_bytes()` and `capacity()` with `array_overflow`
-/
namespace SC
variable {KB VB : Type} {p : SepCfg KB VB} {hk : HashKind} {tr : Nat → Nat → Nat} {W kw vw : Nat} {c : ArrEnv} {junk : Nat → Nat}

/-- After the calls of C106: every pair is in exactly one of the buckets and the overflow table, which has a mark for every bucket. -/
theorem sep_arr_occupancy (h : SepOK p hk tr W kw vw) (hf : ArrFits c (tr vw)) {ops : List MapOp}
    (hops : ∀ op ∈ ops, ArrCall c junk (tr vw) hk W kw op) {t : Tab (SepStore KB VB) ArrOv} {as : List Ans}
    (ht : Tab.run (sepMapJunk p hk c junk) (Tab.new (sepMapJunk p hk c junk) kw vw) ops = .ok (t, as)) :
    t.bucketCount ≤ t.store.n ∧ (∀ b < t.bucketCount, (t.store.bkt b).size ≤ p.maxSize ∧
        (t.store.bkt b).size ≤ p.strat.size (t.store.bkt b).cap (t.store.bkt b).size) ∧
      ((List.range t.bucketCount).map (fun b => (t.store.bkt b).size)).sum + t.ovf.elems = t.size ∧
      t.bucketCount ≤ t.ovf.nbits ∧ t.ovf.elems ≤ 256 := by
  obtain ⟨knorm, KRep, h1, h2, h3⟩ := h.keys.lawful
  obtain ⟨⟨VRep, h4⟩, h5⟩ := h.vals.lawful
  have hM : 2 ≤ p.maxSize := by have := h.max; unfold SepCfg.maxSize; omega
  obtain ⟨L, hg⟩ := sep_laws (ov := arrIdeal c junk) h1 h2 h4 h3 (h5 vw) (lawful_ideal c junk)
    (fun x => Nat.mod_eq_of_lt (hf.wide x)) hM h.hash h.vw_pos h.vw_le true
  have A := junk_agree c junk (NotJunk c junk) (fun k hk => hk.1) (fun i hi hk => hk.2 i hi rfl)
  obtain ⟨t', l, r1, r2, _⟩ := run_withOv (g := sepTable p hk (arrIdeal c junk)) A L hg ops (fun op hop => ⟨ValidOp.opOK L.hi_lt L.lo_pos
    (fun v hv => hv) (show 0 % 2 ^ c.vs = tr vw 0 by rw [hf.zero]; exact Nat.zero_mod _) (hops op hop).1, (hops op hop).2⟩)
  have e : Except.ok (t, as) = Except.ok (t', _) := ht.symm.trans r1
  cases e
  rcases r2 with ⟨_, _, _, _, e0, e1, _, _, n, full, hO⟩ | ⟨cont, o, full, hl, _⟩
  · have hb : t.bucketCount = 0 := by simp [Tab.bucketCount, e0]
    have hi : t.ovf.elems = 0 := (show IdealRep t.ovf n [] full from hO).elems
    rw [hb]
    exact ⟨Nat.zero_le _, by intro b hb; omega, by simp [hi, Tab.size, e1], Nat.zero_le _, by omega⟩
  · have hr : SepRep p KRep VRep true t.store (t.dim (sepTable p hk (arrIdeal c junk))) cont := hl.rep
    have hO : IdealRep t.ovf (2 ^ t.tb) o full := hl.orep
    obtain ⟨a1, a2, a3⟩ := live_occupancy L hl hr
    refine ⟨a1, a2, ?_, ?_, ?_⟩
    · rw [hO.elems]; exact a3
    · rw [hl.bc L]; exact hO.nbits
    · obtain ⟨r, _, hlen⟩ := hO.keys
      have e : arrLength = 256 := rfl
      rw [hO.elems]
      omega

/-- **C130**: after calls that neither erase nor clear and mention no key that fresh memory holds, `size_in_bytes()` does not fail.  If the upper bound
given here fits into 64 bits, its value counts every pair in a bucket with the bits of quotient and value, all 256 places of the overflow table - which
holds the other pairs - and a bit for the mark of each bucket; and it exceeds this only by rounding each bucket to whole keys, by unused bits of the
marks and by one byte.  `size()` exceeds `capacity()` and `max_size()` at most by the pairs in the overflow table. -/
theorem C130_array_overflow_size (h : SepOK p hk tr W kw vw) (hf : ArrFits c (tr vw)) {z : Sizeof} {keyBits valueBits : Nat}
    (hz : z.For p.strat keyBits valueBits) (hkb : 0 < keyBits) (hkb' : keyBits ≤ 64) (hks : 8 ∣ c.ks) (hvs : 8 ∣ c.vs)
    {bitSize : Nat → Nat} (hbits : ∀ n, n ≤ bitSize n)
    {ops : List MapOp} (hops : ∀ op ∈ ops, ArrCall c junk (tr vw) hk W kw op) {t : Tab (SepStore KB VB) ArrOv} {as : List Ans}
    (ht : Tab.run (sepMapJunk p hk c junk) (Tab.new (sepMapJunk p hk c junk) kw vw) ops = .ok (t, as)) :
    ∃ n m cap, p.sizeInBytesArr (sepMapJunk p hk c junk) c z bitSize t = .ok n ∧ p.capacity t = .ok cap ∧
      m + t.ovf.elems = t.size ∧ t.ovf.elems ≤ 256 ∧ m ≤ cap ∧ m ≤ p.maxSize * t.bucketCount ∧
      (8 * z.members + t.bucketCount * (8 * z.strategy + 63) + m * ((t.hash (sepMapJunk p hk c junk)).remainderWidth t.tb + valueBits) +
        bitSize t.ovf.nbits + 256 * (c.ks + c.vs) + 8 < 8 * 2 ^ 64 →
      8 * n ≤ 8 * z.members + t.bucketCount * (8 * z.strategy + 63) + m * ((t.hash (sepMapJunk p hk c junk)).remainderWidth t.tb + valueBits) +
        bitSize t.ovf.nbits + 256 * (c.ks + c.vs) + 8 ∧
      8 * z.members + t.bucketCount * (8 * z.strategy + 1) + m * ((t.hash (sepMapJunk p hk c junk)).remainderWidth t.tb + valueBits) +
        256 * (c.ks + c.vs) < 8 * n) := by
  obtain ⟨hn, hle, hsum, hmark, hcount⟩ := sep_arr_occupancy h hf hops ht
  have hcap := sum_le_sum (l := List.range t.bucketCount) (fun b hb => (hle b (by simpa using hb)).2)
  have hmax : ((List.range t.bucketCount).map (fun b => (t.store.bkt b).size)).sum ≤ p.maxSize * t.bucketCount := by
    have := sum_le_mul (M := p.maxSize) (l := (List.range t.bucketCount).map (fun b => (t.store.bkt b).size)) (by
      intro n hn
      obtain ⟨b, hb, rfl⟩ := List.mem_map.mp hn
      exact (hle b (by simpa using hb)).1)
    simpa using this
  have hc : p.capacity t = .ok ((List.range t.bucketCount).map (fun b => p.strat.size (t.store.bkt b).cap (t.store.bkt b).size)).sum := by
    unfold SepCfg.capacity
    rw [capacity_fold (by intro b hb; exact Nat.lt_of_lt_of_le (by simpa using hb) hn), Nat.zero_add]
  generalize hm : ((List.range t.bucketCount).map (fun b => (t.store.bkt b).size)).sum = m at *
  obtain ⟨S, hS, hlow, hup⟩ := size_core (p := p) (g := sepMapJunk p hk c junk) rfl hz hkb hkb' hn hm
  unfold SepCfg.sizeInBytesArr
  rw [hS]
  simp only [ok_bind, pure_eq_ok]
  refine ⟨_, m, _, rfl, hc, hsum, hcount, hcap, hmax, ?_⟩
  intro hfit
  generalize (t.hash (sepMapJunk p hk c junk)).remainderWidth t.tb = qw at *
  have hb := hbits t.ovf.nbits
  have e1 : t.bucketCount * (8 * z.strategy + 63) = 8 * (z.strategy * t.bucketCount) + t.bucketCount * 63 := by
    rw [Nat.mul_add, Nat.mul_comm z.strategy, Nat.mul_left_comm]
  have e2 : t.bucketCount * (8 * z.strategy + 1) = 8 * (z.strategy * t.bucketCount) + t.bucketCount := by
    rw [Nat.mul_add, Nat.mul_comm z.strategy, Nat.mul_left_comm, Nat.mul_one]
  rw [e1] at hfit
  rw [e1, e2]
  obtain ⟨ks, ek⟩ := hks
  obtain ⟨vs, ev⟩ := hvs
  have ek' : c.ks / 8 = ks := by omega
  have ev' : c.vs / 8 = vs := by omega
  have hw : ((z.strategy * t.bucketCount + z.members + S) % W64 + t.ovf.sizeInBytes c bitSize) % W64 =
      z.strategy * t.bucketCount + z.members + S + (bitSize t.ovf.nbits / 8 + 256 * ks + 256 * vs + 1) := by
    unfold ArrOv.sizeInBytes
    rw [← Nat.add_mod, ek', ev', show arrLength = 256 from rfl]
    exact Nat.mod_eq_of_lt (show _ < 2 ^ 64 by omega)
  rw [hw]
  constructor <;> omega

/-- the example: the overflow table needs 256 places of 48 bits -/
example : ∃ t as n, Tab.run (sepMapJunk exCfg (.xorshift 16) zeroEx (fun _ => 0)) (Tab.new (sepMapJunk exCfg (.xorshift 16) zeroEx (fun _ => 0)) 10 20)
      (zeroExOps.take 60) = .ok (t, as) ∧
    exCfg.sizeInBytesArr (sepMapJunk exCfg (.xorshift 16) zeroEx (fun _ => 0)) zeroEx exSizeof id t = .ok n ∧ 256 * 48 < 8 * n ∧ 0 < t.ovf.elems := by
  have hrun : (match Tab.run (sepMapJunk exCfg (.xorshift 16) zeroEx (fun _ => 0)) (Tab.new (sepMapJunk exCfg (.xorshift 16) zeroEx (fun _ => 0)) 10 20)
      (zeroExOps.take 60) with
    | .ok (t, _) => decide (0 < t.ovf.elems) && decide (8 * exSizeof.members + t.bucketCount * (8 * exSizeof.strategy + 63) + t.size *
        ((t.hash (sepMapJunk exCfg (.xorshift 16) zeroEx (fun _ => 0))).remainderWidth t.tb + 32) + t.ovf.nbits + 256 * 48 + 8 < 8 * 2 ^ 64)
    | .error _ => false) = true := by decide +kernel
  have hv : ∀ op ∈ zeroExOps.take 60, ArrCall zeroEx (fun _ => 0) (fun v => v % 2 ^ 32) (.xorshift 16) 16 10 op :=
    fun op hop => zeroExOps_ok op (List.mem_of_mem_take hop)
  obtain ⟨t, ht⟩ := C106_separate_array_partial exOK zeroEx_fits _ hv
  rw [ht] at hrun
  simp only [Bool.and_eq_true, decide_eq_true_eq] at hrun
  obtain ⟨n, m, cap, h1, _, h2, _, _, _, h3⟩ := C130_array_overflow_size exOK zeroEx_fits exSizeof_for (by decide) (by decide) (by decide) (by decide)
    (bitSize := id) (fun n => Nat.le_refl n) hv ht
  have hm : m ≤ t.size := by omega
  have h4 := (h3 (Nat.lt_of_le_of_lt (by
    refine Nat.add_le_add_right (Nat.add_le_add_right (Nat.add_le_add_right (Nat.add_le_add_left (Nat.mul_le_mul_right _ hm) _) _) _) _) hrun.2)).2
  exact ⟨t, _, n, ht, h1, Nat.lt_of_le_of_lt (Nat.le_add_left _ _) h4, hrun.1⟩

end SC
