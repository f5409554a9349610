import Verif.Props.SizeOv
import Verif.Props.Limits
import Verif.Props.BitsG
/-!
# C129: `capacity()` and `max_size()` with `map_overflow`
-/
namespace SC
variable {KB VB : Type} {p : SepCfg KB VB} {hk : HashKind} {tr : Nat → Nat → Nat} {W kw vw : Nat} {c : MapEnv}

/-- **C129**, the part that holds: after every history `capacity()` does not fail, and `size()` exceeds it, or `max_size()`, at most by the number of
pairs in the overflow table, which is at most `overflow_capacity`.  In particular `size()` is at most `capacity()` while nothing has spilled.
Missing, and false: that `size()` is at most `capacity()` or `max_size()` in any case (`C129_overflow_capacity_false`). -/
theorem C129_overflow_capacity_partial (h : SepOK p hk tr W kw vw) (hc : c.good) (hf : OvFits c (tr vw)) {ops : List MapOp}
    (hops : ∀ op ∈ ops, OvValid c (tr vw) hk W kw op) {t : Tab (SepStore KB VB) MapOv} {as : List Ans}
    (ht : Tab.run (sepMapOv p hk c) (Tab.new (sepMapOv p hk c) kw vw) ops = .ok (t, as)) :
    ∃ n, p.capacity t = .ok n ∧ t.size ≤ n + t.ovf.items.length ∧ t.ovf.items.length ≤ t.ovf.count ∧
      (p.strat = .incremental → t.size = n + t.ovf.items.length) ∧
      (t.bucketCount ≤ 2 ^ 56 → t.size ≤ p.maxTableSize t + t.ovf.items.length) := by
  obtain ⟨hn, hle, hsum, _, hcount⟩ := sep_ov_occupancy h hc hf hops ht
  refine ⟨((List.range t.bucketCount).map (fun b => p.strat.size (t.store.bkt b).cap (t.store.bkt b).size)).sum, ?_, ?_, hcount, ?_, ?_⟩
  · unfold SepCfg.capacity
    rw [capacity_fold (by intro b hb; exact Nat.lt_of_lt_of_le (by simpa using hb) hn), Nat.zero_add]
  · rw [← hsum]
    exact Nat.add_le_add_right (sum_le_sum fun b hb => (hle b (by simpa using hb)).2) _
  · intro hs
    rw [← hsum, hs]; rfl
  · intro hb
    have h1 : ((List.range t.bucketCount).map (fun b => (t.store.bkt b).size)).sum ≤ p.maxSize * t.bucketCount := by
      have := sum_le_mul (M := p.maxSize) (l := (List.range t.bucketCount).map (fun b => (t.store.bkt b).size)) (by
        intro n hn
        obtain ⟨b, hb, rfl⟩ := List.mem_map.mp hn
        exact (hle b (by simpa using hb)).1)
      simpa using this
    have hM : p.maxSize * t.bucketCount ≤ 255 * 2 ^ 56 := Nat.mul_le_mul (by unfold SepCfg.maxSize; omega) hb
    unfold SepCfg.maxTableSize
    rw [Nat.mod_eq_of_lt (Nat.lt_of_le_of_lt hM (by decide)), ← hsum]
    exact Nat.add_le_add_right h1 _

/-- **C129** for `group_chaining_table`, the part that holds: no group holds more than 255 entries, each pair is in exactly one of the groups and the
overflow table, and `size()` exceeds `capacity()` and `max_size()` at most by the number of pairs in the overflow table. -/
theorem C129_group_overflow_capacity_partial {gc : GrpCfg} (h : GrpOK hk kw vw) (hc : c.good) (hf : OvFits c (fun v => v % 2 ^ vw)) {ops : List MapOp}
    (hops : ∀ op ∈ ops, OvValid c (fun v => v % 2 ^ vw) hk 64 kw op) {t : Tab GrpStore MapOv} {as : List Ans}
    (ht : Tab.run (grpTable gc hk (mapOverflow c)) (Tab.new (grpTable gc hk (mapOverflow c)) kw vw) ops = .ok (t, as)) :
    (∀ j < grpCount t, ∃ x, t.store.get j = .ok x ∧ x.size ≤ 255) ∧
    ((List.range (grpCount t)).map (fun j => (t.store.grp j).size)).sum + t.ovf.items.length = t.size ∧ t.ovf.items.length ≤ t.ovf.count ∧
    (t.bucketCount ≤ 2 ^ 56 → t.size ≤ grpCapacity t + t.ovf.items.length) := by
  obtain ⟨L, hg⟩ := grp_ov_laws (gc := gc) h hc hf
  have hv : ∀ op ∈ ops, OpOK (grpParOv c gc.strict hk kw vw) op := fun op hop =>
    ValidOp.opOK (P := grpParOv c gc.strict hk kw vw) L.hi_lt L.lo_pos (fun v hv => hv)
      (show c.val 0 = 0 % 2 ^ vw by rw [Nat.zero_mod]; exact Nat.zero_mod _) (hops op hop)
  obtain ⟨t', l, r1, r2, r3⟩ := Tab.run_new L hg ops hv
  have e : Except.ok (t, as) = Except.ok (t', _) := ht.symm.trans r1
  cases e
  rcases r2 with ⟨_, _, _, _, e0, e1, _, _, n, full, hO⟩ | ⟨cont, o, full, hl, _⟩
  · have hi : t.ovf.items.length = 0 := by rw [← (show MapRep c t.ovf n [] full from hO).perm.length_eq]; rfl
    have e : grpCount t = 0 := by simp [grpCount, e0]
    have e2 : t.size = 0 := e1
    rw [e, e2, hi]
    exact ⟨fun j hj => absurd hj (Nat.not_lt_zero _), rfl, Nat.zero_le _, fun _ => Nat.zero_le _⟩
  · have hr : GrpRep gc.strict t.store (t.dim (grpTable gc hk (mapOverflow c))) cont := hl.rep
    have hO : MapRep c t.ovf (2 ^ t.tb) o full := hl.orep
    have htb : t.tb ≠ 0 := by have := hl.lo; have := L.lo_pos; omega
    obtain ⟨hcount, hsz, hsum⟩ := grp_sizes hr htb (hl.bc L) hl.bpg_pos
    have e2 : t.size = _ := hl.elems
    have hsum' : ((List.range (grpCount t)).map (fun j => (t.store.grp j).size)).sum + t.ovf.items.length = t.size := by
      rw [hsum, ← length_stored ((grpTable gc hk (mapOverflow c)).hash kw), ← hO.perm.length_eq, e2]
      simp [ents, grpParOv]
    refine ⟨fun j hj => ⟨t.store.grp j, ?_, hsz j (hcount ▸ hj)⟩, hsum', hO.length_le hc, fun hb => ?_⟩
    · rw [hcount] at hj
      unfold GrpStore.get
      rw [if_pos hj]
    · rw [← hsum']
      exact Nat.add_le_add_right (grp_sum_le htb (fun j hj => hsz j (hcount ▸ hj)) hb) _

/-- `exCfg` with `incremental_resize` and buckets of at most two elements -/
def capCfg : SepCfg PlainB PlainB := { kops := plainOps 16, vops := plainOps 32, strat := .incremental, maxBucket := 2 }

theorem capOK : SepOK capCfg (.xorshift 16) (fun _ v => v % 2 ^ 32) 16 3 20 where
  keys := .plain (by simp)
  vals := .plain (by simp)
  max := by decide
  hash := by
    have : sepIni 3 = 1 := by decide +kernel
    simp [HashKind.Supports, this]
  vw_pos := by decide
  vw_le := by decide

def capOps : List MapOp := [.insert 0 10, .insert 1 11, .insert 2 12, .insert 3 13, .insert 4 14]

theorem capOps_valid : ∀ op ∈ capOps, OvValid ovEx (fun v => v % 2 ^ 32) (.xorshift 16) 16 3 op := by decide +kernel

/-- **C129** is false: after five insertions of 3-bit keys, both buckets are full and one pair is in the overflow table; `size()` is 5, but
`capacity()` and `max_size()` are 4. -/
theorem C129_overflow_capacity_false : (∀ op ∈ capOps, OvValid ovEx (fun v => v % 2 ^ 32) (.xorshift 16) 16 3 op) ∧
    ∃ t as, Tab.run (sepMapOv capCfg (.xorshift 16) ovEx) (Tab.new (sepMapOv capCfg (.xorshift 16) ovEx) 3 20) capOps = .ok (t, as) ∧
      t.size = 5 ∧ capCfg.capacity t = .ok 4 ∧ capCfg.maxTableSize t = 4 := by
  refine ⟨capOps_valid, ?_⟩
  have h : (match Tab.run (sepMapOv capCfg (.xorshift 16) ovEx) (Tab.new (sepMapOv capCfg (.xorshift 16) ovEx) 3 20) capOps with
    | .ok (t, _) => t.size == 5 && (match capCfg.capacity t with | .ok n => n == 4 | .error _ => false) && capCfg.maxTableSize t == 4
    | .error _ => false) = true := by decide +kernel
  revert h
  cases Tab.run (sepMapOv capCfg (.xorshift 16) ovEx) (Tab.new (sepMapOv capCfg (.xorshift 16) ovEx) 3 20) capOps with
  | error e => intro h; cases h
  | ok r =>
    intro h
    simp only [Bool.and_eq_true, beq_iff_eq] at h
    refine ⟨r.1, r.2, rfl, h.1.1, ?_, h.2⟩
    have h2 := h.1.2
    revert h2
    cases capCfg.capacity r.1 with
    | error e => intro h; cases h
    | ok n => intro h; rw [beq_iff_eq.mp h]

/-- the example: four of 59 pairs are in the overflow table -/
example : ∃ t as n, Tab.run (sepMapOv exCfg (.xorshift 16) ovEx) (Tab.new (sepMapOv exCfg (.xorshift 16) ovEx) 10 20) ovExOps = .ok (t, as) ∧
    exCfg.capacity t = .ok n ∧ 55 ≤ n := by
  obtain ⟨t, as, ht, hs, hi⟩ := ovExAfter
  obtain ⟨n, h1, h2, _⟩ := C129_overflow_capacity_partial exOK ovEx_good ovEx_fits ovExOps_valid ht
  exact ⟨t, as, n, ht, h1, by omega⟩

example : ∃ t as, Tab.run (grpTable grpEx (.xorshift 64) (mapOverflow ovEx)) (Tab.new (grpTable grpEx (.xorshift 64) (mapOverflow ovEx)) 11 13)
      ((List.range 900).map (fun i => .insert (2 * i) i)) = .ok (t, as) ∧
    ((List.range (grpCount t)).map (fun j => (t.store.grp j).size)).sum + t.ovf.items.length = t.size := by
  have hv : ∀ op ∈ (List.range 900).map (fun i => MapOp.insert (2 * i) i), OvValid ovEx (fun v => v % 2 ^ 13) (.xorshift 64) 64 11 op := by
    decide +kernel
  obtain ⟨t, ht⟩ := C50_group_map_overflow (gc := grpEx) grpExOK ovEx_good ovEx_fits_grp _ hv
  exact ⟨t, _, ht, (C129_group_overflow_capacity_partial grpExOK ovEx_good ovEx_fits_grp hv ht).2.1⟩

end SC
