import Verif.Sep.SizeOv
import Verif.Props.Memory
import Verif.Props.Overflow
/-!
# C126: `size_in_bytes()` of `separate_chaining_table` with `map_overflow`
-/
namespace SC
variable {KB VB : Type} {p : SepCfg KB VB} {hk : HashKind} {tr : Nat → Nat → Nat} {W kw vw : Nat} {c : MapEnv}

/-- the buckets of a table with any overflow table -/
theorem live_occupancy {O : Type} {g : Cfg (SepStore KB VB) O} {P : Par (SepStore KB VB) O} {t : Tab (SepStore KB VB) O} {cont : Cont}
    {o : List (Nat × Nat × Nat)} {full : Nat → Bool} {KRep : KB → Nat → Nat → List Nat → Prop} {VRep : VB → Nat → Nat → List Nat → Prop}
    (L : Laws g P) (hl : Live g P t cont o full) (hr : SepRep p KRep VRep true t.store (t.dim g) cont) :
    t.bucketCount ≤ t.store.n ∧ (∀ b < t.bucketCount, (t.store.bkt b).size ≤ p.maxSize ∧
        (t.store.bkt b).size ≤ p.strat.size (t.store.bkt b).cap (t.store.bkt b).size) ∧
      ((List.range t.bucketCount).map (fun b => (t.store.bkt b).size)).sum + o.length = t.size := by
  rw [hl.bc L]
  refine ⟨Nat.le_of_eq hr.n.symm, ?_, ?_⟩
  · intro b hb
    have hx := hr.bkt b hb
    refine ⟨by rw [hx.size]; exact hx.le, ?_⟩
    cases hst : p.strat with
    | incremental => exact Nat.le_refl _
    | arbitrary => rw [hx.size]; exact hx.cap rfl hst
  · have e1 : (List.range (2 ^ t.tb)).map (fun b => (t.store.bkt b).size) = (List.range (2 ^ t.tb)).map (fun b => (cont b).length) := by
      apply List.map_congr_left
      intro b hb
      exact (hr.bkt b (show b < 2 ^ t.tb by simpa using hb)).size
    have e2 : t.size = _ := hl.elems
    rw [e1, ← length_stored (g.hash P.kw), e2]
    simp [ents]

/-- The value of `size_in_bytes()` without the overflow table: `S` bytes for the `m` pairs in the buckets, which are the bits of quotient and value of
each pair, and the rounding of each bucket. -/
theorem size_core {O : Type} {g : Cfg (SepStore KB VB) O} (hd : g.debug = false) {z : Sizeof} {keyBits valueBits : Nat}
    (hz : z.For p.strat keyBits valueBits) (hkb : 0 < keyBits) (hkb' : keyBits ≤ 64) {t : Tab (SepStore KB VB) O} (hn : t.bucketCount ≤ t.store.n)
    {m : Nat} (hm : ((List.range t.bucketCount).map (fun b => (t.store.bkt b).size)).sum = m) :
    ∃ S, p.sizeInBytes g z t = .ok ((z.strategy * t.bucketCount + z.members + S) % W64) ∧
      m * ((t.hash g).remainderWidth t.tb + valueBits) ≤ 8 * S ∧
      8 * S ≤ t.bucketCount * 63 + m * ((t.hash g).remainderWidth t.tb + valueBits) := by
  have eK : z.key * 8 = keyBits := by rw [Nat.mul_comm]; exact hz.key
  refine ⟨_, sizeInBytes_eq hd hn, ?_⟩
  generalize hq : (t.dim g).qw = qw at *
  have hq' : (t.hash g).remainderWidth t.tb = qw := hq
  rw [hq']
  generalize hS : ((List.range t.bucketCount).map (fun b => ceilDiv ((t.store.bkt b).size * qw) (z.key * 8) * z.key +
        z.value * (t.store.bkt b).size)).sum = S at *
  have h8 : 8 * S = ((List.range t.bucketCount).map (fun b => ceilDiv ((t.store.bkt b).size * qw) keyBits * keyBits +
        valueBits * (t.store.bkt b).size)).sum := by
    rw [← hS, ← sum_map_mul]
    congr 2
    funext b
    rw [Nat.mul_add, eK, Nat.mul_left_comm, hz.key, ← Nat.mul_assoc, hz.value]
  constructor
  · rw [h8, ← hm, Nat.mul_comm, ← sum_map_mul]
    refine sum_map_le fun b _ => ?_
    have := ceilDiv_mul_ge ((t.store.bkt b).size * qw) hkb
    rw [Nat.add_mul, Nat.mul_comm qw]
    rw [Nat.mul_comm keyBits] at this
    omega
  · have e : t.bucketCount * 63 = (List.range t.bucketCount).length * 63 := by rw [List.length_range]
    rw [h8, ← hm, Nat.mul_comm _ (qw + valueBits), ← sum_map_mul, e, ← sum_map_add_const]
    refine sum_map_le fun b _ => ?_
    have := ceil_round (a := (t.store.bkt b).size * qw) hkb hkb'
    rw [Nat.add_mul, Nat.mul_comm qw]
    omega

/-- After every history: the arrays have `bucket_count()` entries, every pair is in exactly one of the buckets and the overflow table, and
the overflow table has a mark for every bucket and a place for every of its pairs. -/
theorem sep_ov_occupancy (h : SepOK p hk tr W kw vw) (hc : c.good) (hf : OvFits c (tr vw)) {ops : List MapOp}
    (hops : ∀ op ∈ ops, OvValid c (tr vw) hk W kw op) {t : Tab (SepStore KB VB) MapOv} {as : List Ans}
    (ht : Tab.run (sepMapOv p hk c) (Tab.new (sepMapOv p hk c) kw vw) ops = .ok (t, as)) :
    t.bucketCount ≤ t.store.n ∧ (∀ b < t.bucketCount, (t.store.bkt b).size ≤ p.maxSize ∧
        (t.store.bkt b).size ≤ p.strat.size (t.store.bkt b).cap (t.store.bkt b).size) ∧
      ((List.range t.bucketCount).map (fun b => (t.store.bkt b).size)).sum + t.ovf.items.length = t.size ∧
      t.bucketCount ≤ t.ovf.nbits ∧ t.ovf.items.length ≤ t.ovf.count := by
  obtain ⟨knorm, KRep, h1, h2, h3⟩ := h.keys.lawful
  obtain ⟨⟨VRep, h4⟩, h5⟩ := h.vals.lawful
  have hM : 2 ≤ p.maxSize := by have := h.max; unfold SepCfg.maxSize; omega
  obtain ⟨L, hg⟩ := sep_laws (ov := mapOverflow c) h1 h2 h4 h3 (h5 vw) (lawful_map c hc)
    (fun x => Nat.mod_eq_of_lt (hf.wide x)) hM h.hash h.vw_pos h.vw_le true
  have hv : ∀ op, OvValid c (tr vw) hk W kw op → OpOK (sepPar p hk KRep VRep (MapRep c) tr c.val true W kw vw) op := fun op hop =>
    ValidOp.opOK L.hi_lt L.lo_pos (fun v hv => hv) (show c.val 0 = tr vw 0 by rw [hf.zero]; exact Nat.zero_mod _) hop
  obtain ⟨t', l, r1, r2, r3⟩ := Tab.run_new L hg ops (fun op hop => hv op (hops op hop))
  have e : Except.ok (t, as) = Except.ok (t', _) := ht.symm.trans r1
  cases e
  rcases r2 with ⟨_, _, _, _, e0, e1, _, _, n, full, hO⟩ | ⟨cont, o, full, hl, _⟩
  · have hb : t.bucketCount = 0 := by simp [Tab.bucketCount, e0]
    have hi : t.ovf.items.length = 0 := by rw [← (show MapRep c t.ovf n [] full from hO).perm.length_eq]; rfl
    rw [hb]
    exact ⟨Nat.zero_le _, by intro b hb; omega, by simp [hi, Tab.size, e1], Nat.zero_le _, by omega⟩
  · have hr : SepRep p KRep VRep true t.store (t.dim (sepMapOv p hk c)) cont := hl.rep
    have hO : MapRep c t.ovf (2 ^ t.tb) o full := hl.orep
    obtain ⟨h1, h2, h3⟩ := live_occupancy L hl hr
    refine ⟨h1, h2, ?_, ?_, hO.length_le hc⟩
    · rw [← h3, ← hO.perm.length_eq, List.length_map]
    · rw [hl.bc L]; exact hO.len

/-- **C126**: after every history `size_in_bytes()` does not fail.  If the upper bound given here fits into 64 bits, its value counts every
pair: a pair in a bucket with the bits of quotient and value, each bucket of the `std::unordered_map` - there are at least as many as pairs in the
overflow table - with `sizeof(std::pair)`, and a bit for the mark of each bucket; and it exceeds this only by rounding each bucket to whole keys and
by unused bits of the marks. -/
theorem C126_size_in_bytes_overflow (h : SepOK p hk tr W kw vw) (hc : c.good) (hf : OvFits c (tr vw)) {z : Sizeof} {keyBits valueBits : Nat}
    (hz : z.For p.strat keyBits valueBits) (hkb : 0 < keyBits) (hkb' : keyBits ≤ 64) {bitSize : Nat → Nat} (hbits : ∀ n, n ≤ bitSize n)
    {pair : Nat} {ops : List MapOp} (hops : ∀ op ∈ ops, OvValid c (tr vw) hk W kw op) {t : Tab (SepStore KB VB) MapOv} {as : List Ans}
    (ht : Tab.run (sepMapOv p hk c) (Tab.new (sepMapOv p hk c) kw vw) ops = .ok (t, as)) :
    ∃ n m, p.sizeInBytesOv (sepMapOv p hk c) z bitSize pair t = .ok n ∧ m + t.ovf.items.length = t.size ∧ t.ovf.items.length ≤ t.ovf.count ∧
      (8 * z.members + t.bucketCount * (8 * z.strategy + 63) + m * ((t.hash (sepMapOv p hk c)).remainderWidth t.tb + valueBits) +
        bitSize t.ovf.nbits + 8 * (pair * t.ovf.count) < 8 * 2 ^ 64 →
      8 * n ≤ 8 * z.members + t.bucketCount * (8 * z.strategy + 63) + m * ((t.hash (sepMapOv p hk c)).remainderWidth t.tb + valueBits) +
        bitSize t.ovf.nbits + 8 * (pair * t.ovf.count) ∧
      8 * z.members + t.bucketCount * (8 * z.strategy + 1) + m * ((t.hash (sepMapOv p hk c)).remainderWidth t.tb + valueBits) +
        8 * (pair * t.ovf.count) ≤ 8 * n + 7) := by
  obtain ⟨hn, _, hsum, hmark, hcount⟩ := sep_ov_occupancy h hc hf hops ht
  generalize hm : ((List.range t.bucketCount).map (fun b => (t.store.bkt b).size)).sum = m at *
  obtain ⟨S, hS, hlow, hup⟩ := size_core (p := p) (g := sepMapOv p hk c) rfl hz hkb hkb' hn hm
  unfold SepCfg.sizeInBytesOv
  rw [hS]
  simp only [ok_bind, pure_eq_ok]
  refine ⟨_, m, rfl, hsum, hcount, ?_⟩
  intro hfit
  generalize (t.hash (sepMapOv p hk c)).remainderWidth t.tb = qw at *
  have hb := hbits t.ovf.nbits
  have e1 : t.bucketCount * (8 * z.strategy + 63) = 8 * (z.strategy * t.bucketCount) + t.bucketCount * 63 := by
    rw [Nat.mul_add, Nat.mul_comm z.strategy, Nat.mul_left_comm]
  have e2 : t.bucketCount * (8 * z.strategy + 1) = 8 * (z.strategy * t.bucketCount) + t.bucketCount := by
    rw [Nat.mul_add, Nat.mul_comm z.strategy, Nat.mul_left_comm, Nat.mul_one]
  rw [e1] at hfit
  rw [e1, e2]
  have hw : ((z.strategy * t.bucketCount + z.members + S) % W64 + t.ovf.sizeInBytes bitSize pair) % W64 =
      z.strategy * t.bucketCount + z.members + S + (bitSize t.ovf.nbits / 8 + pair * t.ovf.count) := by
    unfold MapOv.sizeInBytes
    rw [← Nat.add_mod]
    exact Nat.mod_eq_of_lt (show _ < 2 ^ 64 by omega)
  rw [hw]
  constructor <;> omega

theorem drop_two {a b c d A B x : Nat} (h : a + A + (B + b) + d ≤ x) (ha : c = a + b) : c ≤ x := by omega

/-- the example: keys and values of 16 and 32 bits, pairs of 8 bytes -/
example : ∃ t as n, Tab.run (sepMapOv exCfg (.xorshift 16) ovEx) (Tab.new (sepMapOv exCfg (.xorshift 16) ovEx) 10 20) ovExOps = .ok (t, as) ∧
    exCfg.sizeInBytesOv (sepMapOv exCfg (.xorshift 16) ovEx) exSizeof id 8 t = .ok n ∧ 2080 ≤ 8 * n + 7 ∧ 4 ≤ t.ovf.count := by
  have hrun : (match Tab.run (sepMapOv exCfg (.xorshift 16) ovEx) (Tab.new (sepMapOv exCfg (.xorshift 16) ovEx) 10 20) ovExOps with
    | .ok (t, _) => t.size == 59 && t.ovf.items.length == 4 && decide (8 * exSizeof.members + t.bucketCount * (8 * exSizeof.strategy + 63) +
        55 * ((t.hash (sepMapOv exCfg (.xorshift 16) ovEx)).remainderWidth t.tb + 32) + t.ovf.nbits + 8 * (8 * t.ovf.count) < 8 * 2 ^ 64)
    | .error _ => false) = true := by decide +kernel
  obtain ⟨t, as, ht, _⟩ := ovExAfter
  rw [ht] at hrun
  simp only [Bool.and_eq_true, beq_iff_eq, decide_eq_true_eq] at hrun
  obtain ⟨⟨h1, h2⟩, h3⟩ := hrun
  obtain ⟨n, m, r1, r2, r4, r3⟩ := C126_size_in_bytes_overflow exOK ovEx_good ovEx_fits exSizeof_for (by decide) (by decide)
    (bitSize := id) (fun n => Nat.le_refl n) (pair := 8) ovExOps_valid ht
  have hm : m = 55 := by omega
  rw [hm] at r3
  refine ⟨t, as, n, ht, r1, ?_, by omega⟩
  have h4 := (r3 h3).2
  rw [Nat.mul_add 55] at h4
  have h5 : exSizeof.members = 40 := rfl
  rw [h5] at h4
  exact drop_two h4 rfl

end SC
