import Verif.Table.BitsG
import Verif.Props.Bits
import Verif.Props.Group
import Verif.Props.Cost
/-!
# The number of buckets and the size of groups as functions of the history: C125, C128
-/
namespace SC

variable {hk : HashKind} {kw vw : Nat} {c : GrpCfg}

/-- `n` is the number of buckets and `w` the number of buckets in a group after the calls `ops` on a new table for keys of `kw` bits with at
most 255 elements in a group.  New tables have groups of 3 buckets, rebuilt tables have groups of 64. -/
def GroupsSpec (H : HashMapping) (kw : Nat) (tr : Nat → Nat) (ops : List MapOp) (n w : Nat) : Prop :=
  ∃ i s, Log2Up (min (kw - 1) 8) i ∧ GroupAfter H 255 64 i tr FMap.empty (0, 3) ops (s, w) ∧ n = if s = 0 then 0 else 2 ^ s

/-- the specification allows one pair of numbers only -/
theorem GroupsSpec.unique {H : HashMapping} {tr : Nat → Nat} {ops : List MapOp} {n n' w w' : Nat} (h : GroupsSpec H kw tr ops n w)
    (h' : GroupsSpec H kw tr ops n' w') : n = n' ∧ w = w' := by
  obtain ⟨i, s, h1, h2, rfl⟩ := h
  obtain ⟨i', s', h1', h2', rfl⟩ := h'
  have := h1.unique h1'
  subst this
  have := h2.unique h2'
  cases this
  exact ⟨rfl, rfl⟩

theorem GrpOK.bitwise (h : GrpOK hk kw vw) : BitwiseG (grpMap c hk) (grpPar c.strict hk kw vw) := by
  have hS := h.hash
  have h3 : 3 ≤ kw ∧ kw ≤ 64 := by cases hk <;> exact ⟨hS.1, hS.2.1⟩
  have hC := h.covered (c := c) (sp := c.strict) id
  exact ⟨hC.laws, hC.grow65, hC.noOverflow, grp_grouped c c.strict hk kw vw, HashKind.isCoarse (show 1 ≤ kw ∧ kw ≤ 64 by omega), 6, rfl⟩

/-- **C125**: the number of buckets and the size of groups after any history, `group_chaining_table`. -/
theorem C125_group_buckets (h : GrpOK hk kw vw) {ops : List MapOp} (hops : ∀ op ∈ ops, GrpValid hk kw op)
    {t : Tab GrpStore Unit} (ht : After (grpMap c hk) kw vw ops t) :
    GroupsSpec (hk.mapping kw) kw (fun v => v % 2 ^ vw) ops t.bucketCount t.bpg := by
  obtain ⟨as, hrun⟩ := ht
  have hS := h.hash
  have h3 : 3 ≤ kw ∧ kw ≤ 64 := by cases hk <;> exact ⟨hS.1, hS.2.1⟩
  have hw : hk.width kw - 1 < 64 := by cases hk <;> simp [HashKind.width] <;> omega
  have hC := h.covered (c := c) (sp := c.strict) id
  have hops' : ∀ op ∈ ops, OpOK (grpPar c.strict hk kw vw) op := fun op hop => hC.opOK (hops op hop)
  have B := h.bitwise (c := c)
  exact ⟨_, _, log2Up_ceilLog (by omega), run_group B ops (Inv.new B.laws) Abs.empty hops' (reserve_range hops hw) hrun, rfl⟩

theorem Regrown.trans {H : HashMapping} {M R x w : Nat} {X Y : Nat → Prop} {s s' : Nat × Nat} (h : Regrown H M R x w X s) (hs : ∀ k, X k → Y k)
    (h' : Regrown H M R s.1 s.2 Y s') : Regrown H M R x w Y s' := by
  by_cases hx : UncrowdedG H M w x X
  · rw [h.1 hx] at h'
    exact h'
  · refine ⟨fun hy => absurd (hy.anti hs) hx, fun _ => ?_⟩
    obtain ⟨a1, a2⟩ := h.2 hx
    by_cases hy : UncrowdedG H M s.2 s.1 Y
    · rw [h'.1 hy]
      exact ⟨⟨a1.ge, a2 ▸ hy, fun r h1 h2 hf => a1.least r h1 h2 (hf.anti hs)⟩, a2⟩
    · obtain ⟨b1, b2⟩ := h'.2 hy
      have := a1.ge
      have := b1.ge
      refine ⟨⟨by omega, b1.fits, fun r h1 h2 hf => ?_⟩, b2⟩
      rcases Nat.lt_trichotomy r s.1 with hr | rfl | hr
      · exact a1.least r h1 hr (hf.anti hs)
      · exact hy (a2.symm ▸ hf)
      · exact b1.least r hr h2 hf

theorem Regrown.ge {H : HashMapping} {M R x w : Nat} {X : Nat → Prop} {s : Nat × Nat} (h : Regrown H M R x w X s) : x ≤ s.1 := by
  by_cases hx : UncrowdedG H M w x X
  · rw [h.1 hx]
  · have := (h.2 hx).1.ge; omega

theorem Regrown.unique {H : HashMapping} {M R x w : Nat} {X : Nat → Prop} {s s' : Nat × Nat} (h : Regrown H M R x w X s)
    (h' : Regrown H M R x w X s') : s = s' := by
  by_cases hx : UncrowdedG H M w x X
  · rw [h.1 hx, h'.1 hx]
  · obtain ⟨a1, a2⟩ := h.2 hx
    obtain ⟨b1, b2⟩ := h'.2 hx
    exact Prod.ext (a1.unique b1) (a2.trans b2.symm)

theorem growing_groups {H : HashMapping} {M R i : Nat} (hi : 1 ≤ i) {f : Nat → Nat} : ∀ {ops : List MapOp} {m : FMap} {s s' : Nat × Nat},
    (∀ op ∈ ops, Growing op) → GroupAfter H M R i f m s ops s' →
    (s' = s ∧ m.after f ops = m) ∨
    ((∃ k, (m.after f ops).keys k) ∧ Regrown H M R (if s.1 = 0 then i else s.1) s.2 (m.after f ops).keys s') := by
  intro ops
  induction ops with
  | nil => intro m s s' _ h; exact .inl ⟨h, rfl⟩
  | cons op ops ih =>
    intro m s s' hg h
    obtain ⟨s1, h1, h2⟩ := h
    have hg' : ∀ op' ∈ ops, Growing op' := fun op' h => hg op' (by simp [h])
    have h0 := hg op (by simp)
    have ins : (∃ k, (m.step f op).1.keys k) → Regrown H M R (if s.1 = 0 then i else s.1) s.2 (m.step f op).1.keys s1 →
        (s' = s ∧ m.after f (op :: ops) = m) ∨
        ((∃ k, (m.after f (op :: ops)).keys k) ∧ Regrown H M R (if s.1 = 0 then i else s.1) s.2 (m.after f (op :: ops)).keys s') := by
      intro ⟨k, hk⟩ hl
      right
      refine ⟨⟨k, keys_grow hg' k hk⟩, ?_⟩
      have hge := hl.ge
      rcases ih hg' h2 with ⟨rfl, e⟩ | ⟨_, h3⟩
      · rw [FMap.after, e]; exact hl
      · rw [if_neg (show s1.1 ≠ 0 by split at hge <;> omega)] at h3
        exact hl.trans (keys_grow hg') h3
    have still : (m.step f op).1 = m → s1 = s → (s' = s ∧ m.after f (op :: ops) = m) ∨
        ((∃ k, (m.after f (op :: ops)).keys k) ∧ Regrown H M R (if s.1 = 0 then i else s.1) s.2 (m.after f (op :: ops)).keys s') := by
      rintro e rfl
      have := ih hg' h2
      rw [FMap.after, e]
      rw [e] at this
      exact this
    have hput : ∀ a b, (m.put a b).keys a := fun a b => by simp [FMap.keys, FMap.put]
    cases op with
    | insert a b =>
      refine ins ⟨a, ?_⟩ h1
      simp only [FMap.step]
      split
      · rename_i y hy; simp [FMap.keys, hy]
      · exact hput _ _
    | get a =>
      refine ins ⟨a, ?_⟩ h1
      simp only [FMap.step]
      split
      · rename_i y hy; simp [FMap.keys, hy]
      · exact hput _ _
    | assign a b => exact ins ⟨a, hput _ _⟩ h1
    | find a => exact still (by simp only [FMap.step]; split <;> rfl) h1
    | erase a => exact h0.elim
    | clear => exact h0.elim
    | reserve a => exact h0.elim
    | _ => exact still rfl h1

/-- the order of insertions is irrelevant -/
theorem GroupsSpec.order {H : HashMapping} {n n' w w' : Nat} {f f' : Nat → Nat} {ops ops' : List MapOp} (hkw : 3 ≤ kw) (h : GroupsSpec H kw f ops n w)
    (h' : GroupsSpec H kw f' ops' n' w') (hg : ∀ op ∈ ops, Growing op) (hg' : ∀ op ∈ ops', Growing op)
    (hk : ∀ k, (FMap.empty.after f ops).get k = none ↔ (FMap.empty.after f' ops').get k = none) : n = n' ∧ w = w' := by
  obtain ⟨i, s, h1, h2, rfl⟩ := h
  obtain ⟨i', s', h1', h2', rfl⟩ := h'
  have := h1.unique h1'
  subst this
  have hi : 1 ≤ i := by
    have := h1.1
    rcases Nat.eq_zero_or_pos i with e | e
    · subst e; simp only [Nat.pow_zero] at this; omega
    · exact e
  have hX : (FMap.empty.after f ops).keys = (FMap.empty.after f' ops').keys := funext fun k => propext (not_congr (hk k))
  have e : (s, w) = (s', w') := by
    rcases growing_groups hi hg h2 with ⟨h3, e3⟩ | ⟨⟨k, hx⟩, h3⟩
    · rcases growing_groups hi hg' h2' with ⟨h4, e4⟩ | ⟨⟨k, hx⟩, h4⟩
      · rw [h3, h4]
      · rw [← hX, e3] at hx
        exact absurd rfl hx
    · rcases growing_groups hi hg' h2' with ⟨h4, e4⟩ | ⟨_, h4⟩
      · rw [hX, e4] at hx
        exact absurd rfl hx
      · rw [hX] at h3
        exact h3.unique h4
  cases e
  exact ⟨rfl, rfl⟩

/-- **C125**: two `group_chaining_table`s with the same keys that were never erased from, cleared or reserved have the same number of buckets
and the same size of groups. -/
theorem C125_group_order (h : GrpOK hk kw vw) {ops ops' : List MapOp} (hops : ∀ op ∈ ops, GrpValid hk kw op ∧ Growing op)
    (hops' : ∀ op ∈ ops', GrpValid hk kw op ∧ Growing op) {t t' : Tab GrpStore Unit} (ht : After (grpMap c hk) kw vw ops t)
    (ht' : After (grpMap c hk) kw vw ops' t')
    (hk' : ∀ k, (FMap.empty.after (fun v => v % 2 ^ vw) ops).get k = none ↔ (FMap.empty.after (fun v => v % 2 ^ vw) ops').get k = none) :
    t.bucketCount = t'.bucketCount ∧ t.bpg = t'.bpg := by
  have hS := h.hash
  have h3 : 3 ≤ kw ∧ kw ≤ 64 := by cases hk <;> exact ⟨hS.1, hS.2.1⟩
  exact (C125_group_buckets h (fun op hop => (hops op hop).1) ht).order (by omega) (C125_group_buckets h (fun op hop => (hops' op hop).1) ht')
    (fun op hop => (hops op hop).2) (fun op hop => (hops' op hop).2) hk'

/-- 40 elements in 32 buckets in groups of 64 after calls of all kinds -/
example : ∃ t, After (grpMap grpEx (.xorshift 64)) 11 13 grpExOps t ∧ t.size = 40 ∧
    GroupsSpec ((HashKind.xorshift 64).mapping 11) 11 (fun v => v % 2 ^ 13) grpExOps 32 64 := by
  obtain ⟨t, h1, h2, h3, h4⟩ := grpExAfter
  have := C125_group_buckets grpExOK grpExOps_valid h1
  rw [h2, h4] at this
  exact ⟨t, h1, h3, this⟩

/-- 900 keys in two orders -/
example : ∃ t t', After (grpMap grpEx (.xorshift 64)) 11 13 ((List.range 900).map (fun i => .insert (2 * i) i)) t ∧
    After (grpMap grpEx (.xorshift 64)) 11 13 ((List.range 900).reverse.map (fun i => .insert (2 * i) (i + 7))) t' ∧
    t.bucketCount = t'.bucketCount ∧ t.bpg = t'.bpg := by
  have hv : ∀ (l : List Nat) (w : Nat → Nat), (∀ i ∈ l, i < 900) → ∀ op ∈ l.map (fun i => MapOp.insert (2 * i) (w i)),
      GrpValid (.xorshift 64) 11 op ∧ Growing op := by
    intro l w hl op hop
    obtain ⟨i, hi, rfl⟩ := List.mem_map.mp hop
    have := hl i hi
    exact ⟨⟨by omega, trivial⟩, trivial⟩
  have hv1 := hv (List.range 900) id (by simp)
  have hv2 := hv (List.range 900).reverse (· + 7) (by simp)
  obtain ⟨t, h1⟩ := C43_group_map_semantics (c := grpEx) grpExOK _ (fun op h => (hv1 op h).1)
  obtain ⟨t', h2⟩ := C43_group_map_semantics (c := grpEx) grpExOK _ (fun op h => (hv2 op h).1)
  refine ⟨t, t', ⟨_, h1⟩, ⟨_, h2⟩, C125_group_order grpExOK hv1 hv2 ⟨_, h1⟩ ⟨_, h2⟩ ?_⟩
  have key : ∀ (f w : Nat → Nat) (l : List Nat) (m : FMap) k, (m.after f (l.map (fun i => .insert (2 * i) (w i)))).get k = none ↔
      m.get k = none ∧ ∀ i ∈ l, k ≠ 2 * i := by
    intro f w l
    induction l with
    | nil => intro m k; simp [FMap.after]
    | cons a l ih =>
      intro m k
      rw [List.map_cons, FMap.after, ih]
      cases hm : m.get (2 * a) with
      | some x =>
        simp only [FMap.step, hm, List.mem_cons, forall_eq_or_imp]
        constructor
        · rintro ⟨h1, h2⟩
          exact ⟨h1, (fun e => by rw [e, hm] at h1; cases h1), h2⟩
        · rintro ⟨h1, _, h2⟩
          exact ⟨h1, h2⟩
      | none =>
        simp only [FMap.step, hm, List.mem_cons, forall_eq_or_imp, FMap.put]
        by_cases e : k = 2 * a <;> simp [e]
  intro k
  refine (key _ id _ _ k).trans (Iff.trans ?_ (key _ (· + 7) _ _ k).symm)
  simp only [List.mem_reverse]

/-! ## C111 with an overflow table -/

/-- **C111**: the number of buckets after any history, `group_chaining_table` with a `map_overflow`. -/
theorem C111_group_overflow_buckets {gc : GrpCfg} {c : MapEnv} (h : GrpOK hk kw vw) (hc : c.good) (hf : OvFits c (fun v => v % 2 ^ vw)) {ops : List MapOp}
    (hops : ∀ op ∈ ops, OvValid c (fun v => v % 2 ^ vw) hk 64 kw op) {t : Tab GrpStore MapOv} {as : List Ans}
    (ht : Tab.run (grpTable gc hk (mapOverflow c)) (Tab.new (grpTable gc hk (mapOverflow c)) kw vw) ops = .ok (t, as)) {N : Nat}
    (hN : ReserveAtMost (2 ^ N) ops) : t.bucketCount ≤ max (max 8 (2 ^ (hk.width kw - 1))) (2 ^ N) := by
  have hS := h.hash
  have h3 : 3 ≤ kw ∧ kw ≤ 64 := by cases hk <;> exact ⟨hS.1, hS.2.1⟩
  have hw : hk.width kw - 1 < 64 := by cases hk <;> simp [HashKind.width] <;> omega
  obtain ⟨L, hg⟩ := grp_ov_laws (gc := gc) h hc hf
  have hv : ∀ op ∈ ops, OpOK (grpParOv c gc.strict hk kw vw) op := fun op hop =>
    ValidOp.opOK (P := grpParOv c gc.strict hk kw vw) L.hi_lt L.lo_pos (fun v hv => hv)
      (show c.val 0 = 0 % 2 ^ vw by rw [Nat.zero_mod]; exact Nat.zero_mod _) (hops op hop)
  have key := fact_buckets L hg hv hops hw hN ht
  have e : (2 : Nat) ^ grpIni kw ≤ 2 ^ 3 := pow_ini_le (n := kw - 1) (I := 8) (j := 3) (by omega) (by omega) (by omega)
  have e2 : Nat.log2 (255 / 64) = 1 := by decide
  simp only [grpParOv, HashKind.grow, e2] at key
  omega

example : ∃ t as, Tab.run (grpTable grpEx (.xorshift 64) (mapOverflow ovEx)) (Tab.new (grpTable grpEx (.xorshift 64) (mapOverflow ovEx)) 11 13)
    [.insert 5 6, .reserve 100, .insert 1000 7, .erase 5] = .ok (t, as) ∧ t.bucketCount ≤ 1024 := by
  have hv : ∀ op ∈ [MapOp.insert 5 6, .reserve 100, .insert 1000 7, .erase 5], OvValid ovEx (fun v => v % 2 ^ 13) (.xorshift 64) 64 11 op := by
    decide +kernel
  obtain ⟨t, ht⟩ := C50_group_map_overflow (gc := grpEx) grpExOK ovEx_good ovEx_fits_grp _ hv
  exact ⟨t, _, ht, C111_group_overflow_buckets (N := 7) grpExOK ovEx_good ovEx_fits_grp hv ht (by
    intro m hm
    simp only [List.mem_cons, List.not_mem_nil, or_false] at hm
    rcases hm with hm | hm | hm | hm <;> cases hm
    decide)⟩

/-! ## C128 -/

theorem grp_ov_grouped (c : MapEnv) (gc : GrpCfg) (sp : Bool) (hk : HashKind) (kw vw : Nat) :
    Grouped (grpTable gc hk (mapOverflow c)) (grpParOv c sp hk kw vw) where
  full s d cont b hd h hb hf := (grp_grouped gc sp hk kw vw).full s d cont b hd h hb hf
  room s d cont b h hp hb := (grp_grouped gc sp hk kw vw).room s d cont b h hp hb

/-- **C128**: with `map_overflow`, `group_chaining_table` has at most as many buckets as without overflow table, if `clear` is never called, or `reserve`
never with more than 64 buckets.  If `clear` is not called, they agree in the size of groups if they agree in the number of buckets. -/
theorem C128_group_overflow_smaller {gc : GrpCfg} {c : MapEnv} (h : GrpOK hk kw vw) (hc : c.good) (hf : OvFits c (fun v => v % 2 ^ vw)) {ops : List MapOp}
    (hops : ∀ op ∈ ops, OvValid c (fun v => v % 2 ^ vw) hk 64 kw op) {t' : Tab GrpStore MapOv} {as : List Ans}
    (ht' : Tab.run (grpTable gc hk (mapOverflow c)) (Tab.new (grpTable gc hk (mapOverflow c)) kw vw) ops = .ok (t', as))
    {t : Tab GrpStore Unit} (ht : After (grpMap gc hk) kw vw ops t) (hcond : .clear ∉ ops ∨ ∀ n, .reserve n ∈ ops → n ≤ 64) :
    t'.bucketCount ≤ t.bucketCount ∧ (.clear ∉ ops → t'.bucketCount = t.bucketCount → t'.bpg = t.bpg) := by
  obtain ⟨as', hrun⟩ := ht
  have hS := h.hash
  have h3 : 3 ≤ kw ∧ kw ≤ 64 := by cases hk <;> exact ⟨hS.1, hS.2.1⟩
  have hw : hk.width kw - 1 < 64 := by cases hk <;> simp [HashKind.width] <;> omega
  have hC := h.covered (c := gc) (sp := gc.strict) id
  have hops' : ∀ op ∈ ops, OpOK (grpPar gc.strict hk kw vw) op := fun op hop => hC.opOK (ValidOp.weaken (hops op hop))
  have B := h.bitwise (c := gc)
  obtain ⟨L, hg⟩ := grp_ov_laws (gc := gc) h hc hf
  have hv : ∀ op ∈ ops, OpOK (grpParOv c gc.strict hk kw vw) op := fun op hop =>
    ValidOp.opOK (P := grpParOv c gc.strict hk kw vw) L.hi_lt L.lo_pos (fun v hv => hv)
      (show c.val 0 = 0 % 2 ^ vw by rw [Nat.zero_mod]; exact Nat.zero_mod _) (hops op hop)
  have hi : grpIni kw ≤ 6 := by
    have e : (2 : Nat) ^ grpIni kw ≤ 2 ^ 3 := pow_ini_le (n := kw - 1) (I := 8) (j := 3) (by omega) (by omega) (by omega)
    have := (Nat.pow_le_pow_iff_right (a := 2) (by omega)).mp e
    omega
  have key : ∀ late : Prop, (.clear ∈ ops → late) → (late → ∀ n, .reserve n ∈ ops → n ≤ 2 ^ 6) →
      Behind 6 late (t'.tb, t'.bpg) (t.tb, t.bpg) := fun late h1 h2 =>
    run_group_ov B L hg (grp_ov_grouped c gc gc.strict hk kw vw) rfl rfl rfl (e := 6) rfl rfl hi rfl ops (Inv.new B.laws) Abs.empty hops' hrun
      (Inv.new L) Abs.empty hv ht' (reserve_range hops hw) h1 h2 ⟨Iff.rfl, .inl rfl⟩
  have hpow : ∀ a b : Nat, (2 : Nat) ^ a = 2 ^ b → a = b := fun a b e => Nat.pow_right_injective (Nat.le_refl 2) e
  constructor
  · obtain ⟨hz, hle⟩ := key (.clear ∈ ops) id (fun hm => hcond.resolve_left (not_not_intro hm))
    simp only at hz hle
    have : t'.tb ≤ t.tb := by
      rcases hle with hle | hle | hle
      · rw [(Prod.mk.inj hle).1]
      · omega
      · omega
    unfold Tab.bucketCount
    split
    · exact Nat.zero_le _
    · rename_i h0
      rw [if_neg (fun e => h0 (hz.mpr e))]
      exact Nat.pow_le_pow_right (by omega) this
  · intro hncl hbc
    obtain ⟨hz, hle⟩ := key False hncl False.elim
    simp only at hz hle
    have : t'.tb = t.tb := by
      unfold Tab.bucketCount at hbc
      split at hbc
      · rename_i h0; rw [h0, hz.mp h0]
      · rename_i h0
        rw [if_neg (fun e => h0 (hz.mpr e))] at hbc
        exact hpow _ _ hbc
    rcases hle with hle | hle | hle
    · exact (Prod.mk.inj hle).2
    · omega
    · exact hle.1.elim

/-- 900 keys with and without overflow table -/
example : ∃ t t' as, After (grpMap grpEx (.xorshift 64)) 11 13 ((List.range 900).map (fun i => .insert (2 * i) i)) t ∧
    Tab.run (grpTable grpEx (.xorshift 64) (mapOverflow ovEx)) (Tab.new (grpTable grpEx (.xorshift 64) (mapOverflow ovEx)) 11 13)
      ((List.range 900).map (fun i => .insert (2 * i) i)) = .ok (t', as) ∧ t'.bucketCount ≤ t.bucketCount := by
  have hv : ∀ op ∈ (List.range 900).map (fun i => MapOp.insert (2 * i) i), OvValid ovEx (fun v => v % 2 ^ 13) (.xorshift 64) 64 11 op := by
    decide +kernel
  obtain ⟨t, h1⟩ := C43_group_map_semantics (c := grpEx) grpExOK _ (fun op h => ValidOp.weaken (hv op h))
  obtain ⟨t', h2⟩ := C50_group_map_overflow (gc := grpEx) grpExOK ovEx_good ovEx_fits_grp _ hv
  exact ⟨t, t', _, ⟨_, h1⟩, h2, (C128_group_overflow_smaller grpExOK ovEx_good ovEx_fits_grp hv h2 ⟨_, h1⟩ (.inl (by simp))).1⟩

end SC
