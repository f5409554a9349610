import Verif.Keysplit.Proofs
import Verif.Props.Table
import Verif.Props.Compact
import Verif.Props.Group
/-!
# Properties of `keysplit_adapter`: C48, C49
-/
namespace SC

/-! ## C48 -/

/-- **C48**: for every `max_bits` from 1 to 64 and every positive number of tables, every key of at most `max_bits` bits is routed to the
first table whose key width is sufficient for it; the keys of at most `max_bits` bits are those up to `max_key()`. -/
theorem C48_keysplit_route (c : KsCfg) (h1 : 1 ≤ c.maxBits) (h64 : c.maxBits ≤ 64) (hl : 1 ≤ c.len) (k : Nat) :
    (k ≤ c.maxKey ↔ k < 2 ^ c.maxBits) ∧
    (k ≤ c.maxKey → c.slot k < c.len ∧ k < 2 ^ c.width (c.slot k) ∧ ∀ j < c.slot k, 2 ^ c.width j ≤ k) := by
  have hmax : c.maxKey = 2 ^ c.maxBits - 1 := by
    have hpow : 2 ^ c.maxBits * 2 ^ (64 - c.maxBits) = W64 := by
      rw [← Nat.pow_add, Nat.add_sub_cancel' h64]
    have p1 := Nat.two_pow_pos c.maxBits
    have p2 := Nat.two_pow_pos (64 - c.maxBits)
    have : (W64 - 1) / 2 ^ (64 - c.maxBits) = 2 ^ c.maxBits - 1 := by
      rw [← hpow]
      generalize 2 ^ c.maxBits = a at *
      generalize 2 ^ (64 - c.maxBits) = b at *
      obtain ⟨a, rfl⟩ : ∃ x, a = x + 1 := ⟨a - 1, by omega⟩
      rw [Nat.div_eq_iff (by omega), Nat.add_sub_cancel, Nat.add_mul]
      omega
    have hle : 2 ^ c.maxBits ≤ 2 ^ 64 := Nat.pow_le_pow_right (by omega) h64
    unfold KsCfg.maxKey
    rw [Nat.shiftRight_eq_div_pow, this, W64_eq]
    omega
  have hp := Nat.two_pow_pos c.maxBits
  refine ⟨by rw [hmax]; omega, fun hk => ?_⟩
  have hk : k < 2 ^ c.maxBits := by rw [hmax] at hk; omega
  refine ⟨c.slot_lt h1 hl hk, c.slot_fits h1 hl hk, fun j hj => ?_⟩
  have h5 := c.interval_pos h1 hl
  have hb := bitWidth_bounds h1 hk
  simp only [KsCfg.slot] at hj
  rw [if_neg (by omega)] at hj
  have hj' : (j + 1) * c.interval ≤ bitWidth k - 1 := (Nat.le_div_iff_mul_le (by omega)).mp hj
  have hmul : 1 * 1 ≤ (j + 1) * c.interval := Nat.mul_le_mul (by omega) h5
  have hne : k ≠ 0 := by
    intro h; subst h
    have : bitWidth 0 = 1 := rfl
    omega
  refine Nat.le_trans (Nat.pow_le_pow_right (by omega) (j := bitWidth k - 1) ?_) ?_
  · unfold KsCfg.width; omega
  · unfold bitWidth
    rw [if_neg hne, Nat.add_sub_cancel]
    exact Nat.log2_self_le hne

/-- 64-bit keys, 5 tables: the interval is 13, the last table has 64 bits -/
example : (KsCfg.mk 64 5).interval = 13 ∧ (KsCfg.mk 64 5).slot (2 ^ 26) = 2 ∧ (KsCfg.mk 64 5).width 4 = 64 ∧
    (KsCfg.mk 64 5).slot (2 ^ 64 - 1) = 4 := by decide +kernel

/-! ## C49 -/

/-- **C49**, for tables of any class that behaves like finite maps with keys up to the key width: the adapter behaves like one finite map,
for all sequences of calls. -/
theorem C49_keysplit_generic {M : Type} {mc : MapClass M} {c : KsCfg} {tr : Nat → Nat} {R : Nat → M → FMap → Prop}
    {valid : Nat → MapOp → Prop} (hm : 1 ≤ c.maxBits) (hl : 1 ≤ c.len)
    (hg : ∀ i < c.len, GoodMap mc tr (c.width i) (valid i) (R i))
    (hv : ∀ i < c.len, ∀ op : KsOp, (∀ k, op.key = some k → k < 2 ^ c.width i) → valid i op.call) (ops : List KsOp)
    (hops : ∀ op ∈ ops, KsValid c op) :
    ∃ ms, c.run mc (c.new mc) ops = .ok (ms, FMap.empty.run tr (ops.map KsOp.call)) := by
  obtain ⟨ms, f, h, _⟩ := KsInv.run hm hl hg hv ops (KsInv.new hg) hops
  exact ⟨ms, h⟩

theorem KsOp.valid {op : KsOp} {w lo hi : Nat} (h : ∀ k, op.key = some k → k < 2 ^ w) : ValidOp w lo hi (fun _ => True) op.call := by
  cases op with
  | assign k v => exact ⟨h k rfl, trivial⟩
  | get k | find k | count k | erase k => exact h k rfl
  | _ => trivial

/-- **C49** for `keysplit_adapter<separate_chaining_map<…>>`. -/
theorem C49_keysplit_separate {KB VB : Type} {p : SepCfg KB VB} {hk : HashKind} {tr : Nat → Nat → Nat} {W vw : Nat} {c : KsCfg}
    (hm : 1 ≤ c.maxBits) (hl : 1 ≤ c.len) (h : ∀ i < c.len, SepOK p hk tr W (c.width i) vw) (ops : List KsOp)
    (hops : ∀ op ∈ ops, KsValid c op) :
    ∃ ms, c.run (tabClass (sepMap p hk) vw) (c.new (tabClass (sepMap p hk) vw)) ops =
      .ok (ms, FMap.empty.run (tr vw) (ops.map KsOp.call)) := by
  have hP : ∀ i, ∃ P, i < c.len → SepParOK p hk tr W (c.width i) vw true P := by
    intro i
    by_cases hi : i < c.len
    · obtain ⟨P, hP⟩ := (h i hi).par true; exact ⟨P, fun _ => hP⟩
    · obtain ⟨P, hP⟩ := (h 0 (by omega)).par true; exact ⟨P, fun h => absurd h hi⟩
  refine C49_keysplit_generic (R := fun i => Sem (sepMap p hk) (Classical.choose (hP i)))
    (valid := fun i => OpOK (Classical.choose (hP i))) hm hl ?_ ?_ ops hops
  · intro i hi
    have hp := Classical.choose_spec (hP i) hi
    revert hp
    generalize Classical.choose (hP i) = P
    intro hp
    have L := hp.laws
    have g := hp.grow65
    obtain ⟨KRep, VRep, rfl⟩ := hp.par
    exact Sem.good L g rfl rfl
  · intro i hi op hop
    exact (Classical.choose_spec (hP i) hi).opOK (KsOp.valid hop)

theorem Covered.good {S : Type} {g : Cfg S Unit} {tr : Nat → Nat} {lo hi kw vw : Nat} {P : Par S Unit} (h : Covered g tr lo hi kw vw P) :
    GoodMap (tabClass g vw) tr kw (OpOK P) (Sem g P) := by
  have := Sem.good h.laws h.grow65 h.vw h.norm
  rw [h.kw] at this
  exact this

/-- **C49** for `keysplit_adapter<compact_chaining_map<…>>`. -/
theorem C49_keysplit_compact {b : VarCfg} {hk : HashKind} {vw : Nat} {c : KsCfg} (hm : 1 ≤ c.maxBits) (hl : 1 ≤ c.len)
    (h : ∀ i < c.len, CmpOK b hk (c.width i) vw) (ops : List KsOp) (hops : ∀ op ∈ ops, KsValid c op) :
    ∃ ms, c.run (tabClass (cmpMap b hk) vw) (c.new (tabClass (cmpMap b hk) vw)) ops =
      .ok (ms, FMap.empty.run (fun v => v % 2 ^ vw) (ops.map KsOp.call)) :=
  C49_keysplit_generic hm hl (fun i hi => (h i hi).covered.good) (fun i hi _ hop => (h i hi).covered.opOK (KsOp.valid hop)) ops hops

/-- **C49** for `keysplit_adapter<group_chaining_table<…>>` (which cannot be asked for `count`, because `group_chaining_table` does not have
it). -/
theorem C49_keysplit_group {e : GrpCfg} {hk : HashKind} {vw : Nat} {c : KsCfg} (hm : 1 ≤ c.maxBits) (hl : 1 ≤ c.len)
    (h : ∀ i < c.len, GrpOK hk (c.width i) vw) (ops : List KsOp) (hops : ∀ op ∈ ops, KsValid c op) :
    ∃ ms, c.run (tabClass (grpMap e hk) vw) (c.new (tabClass (grpMap e hk) vw)) ops =
      .ok (ms, FMap.empty.run (fun v => v % 2 ^ vw) (ops.map KsOp.call)) :=
  C49_keysplit_generic hm hl (fun i hi => ((h i hi).covered (c := e) (sp := true) (fun _ => rfl)).good)
    (fun i hi _ hop => ((h i hi).covered (c := e) (sp := true) (fun _ => rfl)).opOK (KsOp.valid hop)) ops hops

/-- `keysplit_adapter<separate_chaining_map<plain_bucket<uint64_t>, …>, 30, 4>` -/
def ksEx : KsCfg := ⟨30, 4⟩

theorem ksExOK : ∀ i < ksEx.len, SepOK { kops := plainOps 64, vops := plainOps 16, strat := .arbitrary, maxBucket := 3 } (.xorshift 64)
    (fun _ v => v % 2 ^ 16) 64 (ksEx.width i) 16 := by
  intro i hi
  have hw : ksEx.width i = 8 ∨ ksEx.width i = 16 ∨ ksEx.width i = 24 ∨ ksEx.width i = 30 := by
    revert i; decide
  refine ⟨.plain (by simp), .plain (by simp), by decide, ?_, by decide, by decide⟩
  simp only [HashKind.Supports]
  omega

def ksExOps : List KsOp :=
  (List.range 30).map (fun i => .assign (2 ^ i + i) (1000 + i)) ++
  [.get 5, .find 6, .erase 6, .find 6, .count (2 ^ 29 + 29), .shrink, .size, .clear, .size]

theorem ksExOps_valid : ∀ op ∈ ksExOps, KsValid ksEx op := by
  have : ∀ op ∈ ksExOps, op.key.all (fun k => decide (k < 2 ^ 30)) = true := by decide +kernel
  intro op h k hk
  have := this op h
  rw [hk] at this
  exact of_decide_eq_true this

example : ∃ ms, ksEx.run (tabClass (sepMap { kops := plainOps 64, vops := plainOps 16, strat := .arbitrary, maxBucket := 3 } (.xorshift 64)) 16)
    (ksEx.new (tabClass (sepMap { kops := plainOps 64, vops := plainOps 16, strat := .arbitrary, maxBucket := 3 } (.xorshift 64)) 16)) ksExOps =
      .ok (ms, FMap.empty.run (fun v => v % 2 ^ 16) (ksExOps.map KsOp.call)) :=
  C49_keysplit_separate (by decide) (by decide) ksExOK ksExOps ksExOps_valid

/-- the answers of the example: `6` has been inserted as `2^2 + 2` -/
example : (FMap.empty.run (fun v => v % 2 ^ 16) (ksExOps.map KsOp.call)).drop 30 =
    [.num 0, .pair 6 1002, .num 1, .absent, .num 1, .none, .num 30, .none, .num 0] := by decide +kernel

/-- for compact and group tables with 11-bit intervals -/
example : (∀ i < 4, CmpOK cmpEx (.xorshift 64) ((KsCfg.mk 44 4).width i) 13) ∧ ∀ i < 4, GrpOK (.xorshift 64) ((KsCfg.mk 44 4).width i) 13 := by
  have hw : ∀ i < 4, 3 ≤ (KsCfg.mk 44 4).width i ∧ (KsCfg.mk 44 4).width i ≤ 64 := by decide
  refine ⟨fun i hi => ⟨by simp [VarCfg.good, cmpEx], ?_, by decide, by decide⟩, fun i hi => ⟨?_, by decide, by decide⟩⟩ <;>
  · have := hw i hi
    simp only [HashKind.Supports]
    omega

/-- What the condition on the widths in **C49** excludes: if one interval is a single bit, as with the default `m_length` = 8 and 8-bit keys,
the first table has key width 1 and the access to the keys 0 and 1 fails (see C33). -/
theorem C49_narrow_interval_fails {KB VB : Type} (p : SepCfg KB VB) (hk : HashKind) (vw : Nat) {c : KsCfg} (hm : 1 ≤ c.maxBits)
    (hl : 1 ≤ c.len) (hi : c.interval = 1) (k : Nat) (hk2 : k < 2) :
    c.step (tabClass (sepMap p hk) vw) (c.new (tabClass (sepMap p hk) vw)) (.get k) = .error .shift := by
  have hs : c.slot k = 0 := by
    obtain rfl | rfl : k = 0 ∨ k = 1 := by omega
    all_goals simp only [KsCfg.slot, hi, bitWidth]; decide
  have hw : c.width 0 = 1 := by unfold KsCfg.width; omega
  have h := C33_key_width_one_false p hk vw k 0
  have h' : (Tab.new (sepMap p hk) 1 vw).subscript (sepMap p hk) k = .error .shift := h
  simp only [KsCfg.step, KsCfg.route, hs, KsCfg.new, hw, tabClass, Tab.step]
  rw [if_pos (by omega), h']
  rfl

example : (KsCfg.mk 8 8).interval = 1 := by decide

end SC
