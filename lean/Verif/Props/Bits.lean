import Verif.Table.Bits
import Verif.Table.Stable
import Verif.Props.FileSize
import Verif.Props.Overflow
/-!
# The number of buckets as a function of the history: C123, C124
-/
namespace SC

variable {KB VB : Type} {p : SepCfg KB VB} {hk : HashKind} {tr : Nat → Nat → Nat} {W kw vw : Nat}

/-! ## C123 -/

/-- `n` is the number of buckets after the calls `ops` on a new table with at most `M` elements in a bucket, for keys of `kw` bits -/
def BucketsSpec (H : HashMapping) (M kw : Nat) (tr : Nat → Nat) (ops : List MapOp) (n : Nat) : Prop :=
  ∃ i s, Log2Up (min (kw - 1) 16) i ∧ BitsAfter H M i tr FMap.empty 0 ops s ∧ n = if s = 0 then 0 else 2 ^ s

/-- the specification allows one number only -/
theorem BucketsSpec.unique {H : HashMapping} {M : Nat} {tr : Nat → Nat} {ops : List MapOp} {n n' : Nat} (h : BucketsSpec H M kw tr ops n)
    (h' : BucketsSpec H M kw tr ops n') : n = n' := by
  obtain ⟨i, s, h1, h2, rfl⟩ := h
  obtain ⟨i', s', h1', h2', rfl⟩ := h'
  have := h1.unique h1'
  subst this
  rw [h2.unique h2']

theorem HashKind.isCoarse (hkw : 1 ≤ kw ∧ kw ≤ 64) : Coarse (hk.mapping kw) kw :=
  fun _ _ _ _ _ h1 h2 h3 h4 h5 => HashKind.coarse hkw h1 h2 h3 h4 h5

theorem SepParOK.bitwise {tight : Bool} {P : Par (SepStore KB VB) Unit} (h : SepOK p hk tr W kw vw) (hP : SepParOK p hk tr W kw vw tight P) :
    Bitwise (sepMap p hk) P := by
  have hS := h.hash
  have h3 : 3 ≤ kw ∧ kw ≤ 64 := by cases hk <;> exact ⟨hS.1, hS.2.1⟩
  obtain ⟨KRep, VRep, hrep⟩ := hP.rep
  refine ⟨hP.laws, hP.grow65, ?_, hP.noOverflow, fun s d c b hR _ hb => ?_, ?_⟩
  · obtain ⟨_, _, rfl⟩ := hP.par; exact Nat.le_refl _
  · have e : P.maxE = p.maxSize := by obtain ⟨_, _, rfl⟩ := hP.par; rfl
    rw [e]
    exact ((hrep s d c hR).bkt b hb).le
  · have e : P.kw = kw := by obtain ⟨_, _, rfl⟩ := hP.par; rfl
    rw [e]
    exact HashKind.isCoarse (by omega)

theorem reserve_range {lo hi : Nat} {vals : Nat → Prop} {ops : List MapOp} (hv : ∀ op ∈ ops, ValidOp kw lo hi vals op) (hhi : hi < 64) :
    ∀ n, .reserve n ∈ ops → 1 ≤ n ∧ n ≤ 2 ^ 63 := fun n hn => by
  obtain ⟨h1, h2, _⟩ : 1 ≤ n ∧ n ≤ 2 ^ hi ∧ _ := hv _ hn
  exact ⟨h1, Nat.le_trans h2 (Nat.pow_le_pow_right (by omega) (by omega))⟩

/-- **C123**: the number of buckets after any history, `separate_chaining_table`. -/
theorem C123_separate_buckets (h : SepOK p hk tr W kw vw) {ops : List MapOp} (hops : ∀ op ∈ ops, SepValid hk W kw op)
    {t : Tab (SepStore KB VB) Unit} (ht : SepAfter p hk kw vw ops t) :
    BucketsSpec (hk.mapping kw) p.maxSize kw (tr vw) ops t.bucketCount := by
  obtain ⟨P, hP⟩ := h.par true
  obtain ⟨as, hrun⟩ := ht
  have hS := h.hash
  have h3 : 3 ≤ kw ∧ kw ≤ 64 := by cases hk <;> exact ⟨hS.1, hS.2.1⟩
  have hw : hk.width kw - 1 < 64 := by cases hk <;> simp [HashKind.width] <;> omega
  have hops' : ∀ op ∈ ops, OpOK P op := fun op hop => hP.opOK (hops op hop)
  have B := SepParOK.bitwise h hP
  obtain ⟨KRep, VRep, rfl⟩ := hP.par
  exact ⟨_, _, log2Up_ceilLog (by omega), run_bits B ops (Inv.new B.laws) Abs.empty hops' (reserve_range hops hw) hrun, rfl⟩

/-- **C123**: the number of buckets after any history, `compact_chaining_map`. -/
theorem C123_compact_buckets {c : VarCfg} (h : CmpOK c hk kw vw) {ops : List MapOp} (hops : ∀ op ∈ ops, CmpValid hk kw op)
    {t : Tab CmpStore Unit} (ht : After (cmpMap c hk) kw vw ops t) :
    BucketsSpec (hk.mapping kw) 255 kw (fun v => v % 2 ^ vw) ops t.bucketCount := by
  obtain ⟨as, hrun⟩ := ht
  have hS := h.hash
  have h3 : 3 ≤ kw ∧ kw ≤ 64 := by cases hk <;> exact ⟨hS.1, hS.2.1⟩
  have hw : hk.width kw - 1 < 64 := by cases hk <;> simp [HashKind.width] <;> omega
  have hC := h.covered
  have hops' : ∀ op ∈ ops, OpOK (cmpPar c hk kw vw) op := fun op hop => hC.opOK (hops op hop)
  have B : Bitwise (cmpMap c hk) (cmpPar c hk kw vw) := ⟨hC.laws, hC.grow65, Nat.le_refl _, hC.noOverflow,
    fun s d c b hR _ hb => ((show CmpRep _ s d c from hR).bkt b hb).le, HashKind.isCoarse (show 1 ≤ kw ∧ kw ≤ 64 by omega)⟩
  exact ⟨_, _, log2Up_ceilLog (by omega), run_bits B ops (Inv.new B.laws) Abs.empty hops' (reserve_range hops hw) hrun, rfl⟩

/-- keys are never lost by such calls -/
theorem keys_grow {f : Nat → Nat} : ∀ {ops : List MapOp} {m : FMap}, (∀ op ∈ ops, Growing op) → ∀ k, m.keys k → (m.after f ops).keys k := by
  intro ops
  induction ops with
  | nil => intro m _ k h; exact h
  | cons op ops ih =>
    intro m hg k hk
    refine ih (fun op' h => hg op' (by simp [h])) k ?_
    have h0 := hg op (by simp)
    have hput : ∀ a b, (m.put a b).keys k := fun a b => by
      simp only [FMap.keys, FMap.put]
      split
      · simp
      · exact hk
    cases op with
    | insert a b => simp only [FMap.step]; split; exacts [hk, hput _ _]
    | get a => simp only [FMap.step]; split; exacts [hk, hput _ _]
    | assign a b => exact hput _ _
    | find a => simp only [FMap.step]; split <;> exact hk
    | erase a => exact h0.elim
    | clear => exact h0.elim
    | reserve a => exact h0.elim
    | _ => exact hk

theorem LeastFit.trans {H : HashMapping} {M x s s' : Nat} {X Y : Nat → Prop} (h : LeastFit H M x X s) (hs : ∀ k, X k → Y k)
    (h' : LeastFit H M s Y s') : LeastFit H M x Y s' where
  ge := Nat.le_trans h.ge h'.ge
  fits := h'.fits
  least := fun r h1 h2 hf => by
    rcases Nat.lt_or_ge r s with hr | hr
    · exact h.least r h1 hr (hf.anti hs)
    · exact h'.least r hr h2 hf

theorem growing_bits {H : HashMapping} {M i : Nat} (hi : 1 ≤ i) {f : Nat → Nat} : ∀ {ops : List MapOp} {m : FMap} {s s' : Nat},
    (∀ op ∈ ops, Growing op) → BitsAfter H M i f m s ops s' →
    (s' = s ∧ m.after f ops = m) ∨ ((∃ k, (m.after f ops).keys k) ∧ LeastFit H M (if s = 0 then i else s) (m.after f ops).keys s') := by
  intro ops
  induction ops with
  | nil => intro m s s' _ h; exact .inl ⟨h, rfl⟩
  | cons op ops ih =>
    intro m s s' hg h
    obtain ⟨s1, h1, h2⟩ := h
    have hg' : ∀ op' ∈ ops, Growing op' := fun op' h => hg op' (by simp [h])
    have h0 := hg op (by simp)
    have ins : (∃ k, (m.step f op).1.keys k) → LeastFit H M (if s = 0 then i else s) (m.step f op).1.keys s1 →
        (s' = s ∧ m.after f (op :: ops) = m) ∨
        ((∃ k, (m.after f (op :: ops)).keys k) ∧ LeastFit H M (if s = 0 then i else s) (m.after f (op :: ops)).keys s') := by
      intro ⟨k, hk⟩ hl
      right
      refine ⟨⟨k, keys_grow hg' k hk⟩, ?_⟩
      have hge := hl.ge
      rcases ih hg' h2 with ⟨rfl, e⟩ | ⟨_, h3⟩
      · rw [FMap.after, e]; exact hl
      · rw [if_neg (show s1 ≠ 0 by split at hge <;> omega)] at h3
        exact hl.trans (keys_grow hg') h3
    have still : (m.step f op).1 = m → s1 = s → (s' = s ∧ m.after f (op :: ops) = m) ∨
        ((∃ k, (m.after f (op :: ops)).keys k) ∧ LeastFit H M (if s = 0 then i else s) (m.after f (op :: ops)).keys s') := by
      rintro e rfl
      have := ih hg' h2
      rw [FMap.after, e]
      rw [e] at this
      exact this
    have hput : ∀ a b, (m.put a b).keys a := fun a b => by simp [FMap.keys, FMap.put]
    cases op with
    | insert a b =>
      refine ins ⟨a, ?_⟩ h1
      simp only [FMap.step]
      split
      · rename_i y hy; simp [FMap.keys, hy]
      · exact hput _ _
    | get a =>
      refine ins ⟨a, ?_⟩ h1
      simp only [FMap.step]
      split
      · rename_i y hy; simp [FMap.keys, hy]
      · exact hput _ _
    | assign a b => exact ins ⟨a, hput _ _⟩ h1
    | find a => exact still (by simp only [FMap.step]; split <;> rfl) h1
    | erase a => exact h0.elim
    | clear => exact h0.elim
    | reserve a => exact h0.elim
    | _ => exact still rfl h1

/-- the order of insertions is irrelevant -/
theorem BucketsSpec.order {H : HashMapping} {M n n' : Nat} {f f' : Nat → Nat} {ops ops' : List MapOp} (hkw : 3 ≤ kw) (h : BucketsSpec H M kw f ops n)
    (h' : BucketsSpec H M kw f' ops' n') (hg : ∀ op ∈ ops, Growing op) (hg' : ∀ op ∈ ops', Growing op)
    (hk : ∀ k, (FMap.empty.after f ops).get k = none ↔ (FMap.empty.after f' ops').get k = none) : n = n' := by
  obtain ⟨i, s, h1, h2, rfl⟩ := h
  obtain ⟨i', s', h1', h2', rfl⟩ := h'
  have := h1.unique h1'
  subst this
  have hi : 1 ≤ i := by
    have := h1.1
    rcases Nat.eq_zero_or_pos i with e | e
    · subst e; simp only [Nat.pow_zero] at this; omega
    · exact e
  have hX : (FMap.empty.after f ops).keys = (FMap.empty.after f' ops').keys := funext fun k => propext (not_congr (hk k))
  have e : s = s' := by
    rcases growing_bits hi hg h2 with ⟨h3, e3⟩ | ⟨⟨k, hx⟩, h3⟩
    · rcases growing_bits hi hg' h2' with ⟨h4, e4⟩ | ⟨⟨k, hx⟩, h4⟩
      · rw [h3, h4]
      · rw [← hX, e3] at hx
        exact absurd rfl hx
    · rcases growing_bits hi hg' h2' with ⟨h4, e4⟩ | ⟨_, h4⟩
      · rw [hX, e4] at hx
        exact absurd rfl hx
      · rw [hX] at h3
        exact h3.unique h4
  rw [e]

/-- **C123**: two `separate_chaining_table`s with the same keys that were never erased from, cleared or reserved have the same number of buckets. -/
theorem C123_separate_order (h : SepOK p hk tr W kw vw) {ops ops' : List MapOp} (hops : ∀ op ∈ ops, SepValid hk W kw op ∧ Growing op)
    (hops' : ∀ op ∈ ops', SepValid hk W kw op ∧ Growing op) {t t' : Tab (SepStore KB VB) Unit} (ht : SepAfter p hk kw vw ops t)
    (ht' : SepAfter p hk kw vw ops' t')
    (hk' : ∀ k, (FMap.empty.after (tr vw) ops).get k = none ↔ (FMap.empty.after (tr vw) ops').get k = none) : t.bucketCount = t'.bucketCount := by
  have hS := h.hash
  have h3 : 3 ≤ kw ∧ kw ≤ 64 := by cases hk <;> exact ⟨hS.1, hS.2.1⟩
  exact (C123_separate_buckets h (fun op hop => (hops op hop).1) ht).order (by omega) (C123_separate_buckets h (fun op hop => (hops' op hop).1) ht')
    (fun op hop => (hops op hop).2) (fun op hop => (hops' op hop).2) hk'

/-- **C123**: the same for `compact_chaining_map`. -/
theorem C123_compact_order {c : VarCfg} (h : CmpOK c hk kw vw) {ops ops' : List MapOp} (hops : ∀ op ∈ ops, CmpValid hk kw op ∧ Growing op)
    (hops' : ∀ op ∈ ops', CmpValid hk kw op ∧ Growing op) {t t' : Tab CmpStore Unit} (ht : After (cmpMap c hk) kw vw ops t)
    (ht' : After (cmpMap c hk) kw vw ops' t')
    (hk' : ∀ k, (FMap.empty.after (fun v => v % 2 ^ vw) ops).get k = none ↔ (FMap.empty.after (fun v => v % 2 ^ vw) ops').get k = none) :
    t.bucketCount = t'.bucketCount := by
  have hS := h.hash
  have h3 : 3 ≤ kw ∧ kw ≤ 64 := by cases hk <;> exact ⟨hS.1, hS.2.1⟩
  exact (C123_compact_buckets h (fun op hop => (hops op hop).1) ht).order (by omega) (C123_compact_buckets h (fun op hop => (hops' op hop).1) ht')
    (fun op hop => (hops op hop).2) (fun op hop => (hops' op hop).2) hk'

/-- 60 elements in 128 buckets after calls of all kinds -/
example : ∃ t, SepAfter exCfg (.xorshift 16) 10 20 exOps t ∧ t.size = 60 ∧
    BucketsSpec ((HashKind.xorshift 16).mapping 10) 3 10 (fun v => v % 2 ^ 32) exOps 128 := by
  obtain ⟨t, h1, h2, h3⟩ := exAfter
  have := C123_separate_buckets exOK exOps_valid h1
  rw [h2] at this
  exact ⟨t, h1, h3, this⟩

example : ∃ t, After (cmpMap cmpEx (.xorshift 64)) 11 13 cmpExOps t ∧ t.size = 40 ∧
    BucketsSpec ((HashKind.xorshift 64).mapping 11) 255 11 (fun v => v % 2 ^ 13) cmpExOps 32 := by
  obtain ⟨t, h1, h2, h3⟩ := cmpExAfter
  have := C123_compact_buckets cmpExOK cmpExOps_valid h1
  rw [h2] at this
  exact ⟨t, h1, h3, this⟩

/-- 40 keys in two orders -/
example : ∃ t t', SepAfter exCfg (.xorshift 16) 10 20 ((List.range 40).map (fun i => .insert (17 * i) i)) t ∧
    SepAfter exCfg (.xorshift 16) 10 20 ((List.range 40).reverse.map (fun i => .insert (17 * i) (i + 7))) t' ∧ t.bucketCount = t'.bucketCount := by
  have hv : ∀ op ∈ (List.range 40).map (fun i => MapOp.insert (17 * i) i), SepValid (.xorshift 16) 16 10 op := by decide +kernel
  have hv' : ∀ op ∈ (List.range 40).reverse.map (fun i => MapOp.insert (17 * i) (i + 7)), SepValid (.xorshift 16) 16 10 op := by decide +kernel
  have hg : ∀ (l : List Nat) (w : Nat → Nat), ∀ op ∈ l.map (fun i => MapOp.insert (17 * i) (w i)), Growing op := by
    intro l w op hop
    obtain ⟨i, _, rfl⟩ := List.mem_map.mp hop
    trivial
  obtain ⟨t, ht⟩ := sep_exists exOK hv
  obtain ⟨t', ht'⟩ := sep_exists exOK hv'
  refine ⟨t, t', ht, ht', C123_separate_order exOK (fun op h => ⟨hv op h, hg _ _ op h⟩) (fun op h => ⟨hv' op h, hg _ (· + 7) op h⟩) ht ht' ?_⟩
  have key : ∀ (f w : Nat → Nat) (l : List Nat) (m : FMap) k, (m.after f (l.map (fun i => .insert (17 * i) (w i)))).get k = none ↔
      m.get k = none ∧ ∀ i ∈ l, k ≠ 17 * i := by
    intro f w l
    induction l with
    | nil => intro m k; simp [FMap.after]
    | cons a l ih =>
      intro m k
      rw [List.map_cons, FMap.after, ih]
      cases hm : m.get (17 * a) with
      | some x =>
        simp only [FMap.step, hm, List.mem_cons, forall_eq_or_imp]
        constructor
        · rintro ⟨h1, h2⟩
          exact ⟨h1, (fun e => by rw [e, hm] at h1; cases h1), h2⟩
        · rintro ⟨h1, _, h2⟩
          exact ⟨h1, h2⟩
      | none =>
        simp only [FMap.step, hm, List.mem_cons, forall_eq_or_imp, FMap.put]
        by_cases e : k = 17 * a <;> simp [e]
  intro k
  refine (key _ id _ _ k).trans (Iff.trans ?_ (key _ (· + 7) _ _ k).symm)
  simp only [List.mem_reverse]

/-- The last two: 32 buckets -/
example : (match Tab.run (sepMap exCfg (.xorshift 16)) (Tab.new (sepMap exCfg (.xorshift 16)) 10 20)
        ((List.range 40).map (fun i => .insert (17 * i) i)),
      Tab.run (sepMap exCfg (.xorshift 16)) (Tab.new (sepMap exCfg (.xorshift 16)) 10 20) ((List.range 40).reverse.map (fun i => .assign (17 * i) 5)) with
    | .ok (t, _), .ok (t', _) => some (t.bucketCount, t'.bucketCount)
    | _, _ => none) = some (32, 32) := by decide +kernel

/-! ## C124 -/

theorem ValidOp.weaken {lo hi : Nat} {vals : Nat → Prop} {op : MapOp} (h : ValidOp kw lo hi vals op) : ValidOp kw lo hi (fun _ => True) op := by
  cases op with
  | insert k v => exact ⟨h.1, trivial⟩
  | assign k v => exact ⟨h.1, trivial⟩
  | _ => exact h

/-- **C124**: with `map_overflow`, `separate_chaining_table` never has more buckets than without overflow table. -/
theorem C124_overflow_smaller {c : MapEnv} (h : SepOK p hk tr W kw vw) (hc : c.good) (hf : OvFits c (tr vw)) {ops : List MapOp}
    (hops : ∀ op ∈ ops, OvValid c (tr vw) hk W kw op) {t' : Tab (SepStore KB VB) MapOv} {as : List Ans}
    (ht' : Tab.run (sepMapOv p hk c) (Tab.new (sepMapOv p hk c) kw vw) ops = .ok (t', as)) {t : Tab (SepStore KB VB) Unit}
    (ht : SepAfter p hk kw vw ops t) : t'.bucketCount ≤ t.bucketCount := by
  obtain ⟨P, hP⟩ := h.par true
  obtain ⟨as', hrun⟩ := ht
  have hS := h.hash
  have h3' : 3 ≤ kw ∧ kw ≤ 64 := by cases hk <;> exact ⟨hS.1, hS.2.1⟩
  have hw : hk.width kw - 1 < 64 := by cases hk <;> simp [HashKind.width] <;> omega
  have hopsP : ∀ op ∈ ops, OpOK P op := fun op hop => hP.opOK (ValidOp.weaken (hops op hop))
  have B := SepParOK.bitwise h hP
  obtain ⟨KRep', VRep', rfl⟩ := hP.par
  obtain ⟨knorm, KRep, h1, h2, h3⟩ := h.keys.lawful
  obtain ⟨⟨VRep, h4⟩, h5⟩ := h.vals.lawful
  have hM : 2 ≤ p.maxSize := by have := h.max; unfold SepCfg.maxSize; omega
  obtain ⟨L, hg⟩ := sep_laws (ov := mapOverflow c) h1 h2 h4 h3 (h5 vw) (lawful_map c hc)
    (fun x => Nat.mod_eq_of_lt (hf.wide x)) hM h.hash h.vw_pos h.vw_le true
  have hv : ∀ op ∈ ops, OpOK (sepPar p hk KRep VRep (MapRep c) tr c.val true W kw vw) op := fun op hop =>
    ValidOp.opOK L.hi_lt L.lo_pos (fun v hv => hv) (show c.val 0 = tr vw 0 by rw [hf.zero]; exact Nat.zero_mod _) (hops op hop)
  have key := run_bits_ov B L hg (Nat.le_refl _) rfl rfl rfl rfl ops (Inv.new B.laws) Abs.empty hopsP hrun (Inv.new L) Abs.empty hv ht'
    (reserve_range hops hw) ⟨Nat.le_refl _, Iff.rfl⟩
  unfold Tab.bucketCount
  split
  · exact Nat.zero_le _
  · split
    · omega
    · exact Nat.pow_le_pow_right (by omega) key.1

/-- **C124**: hence the bound of C111 also holds with `map_overflow`. -/
theorem C124_overflow_buckets {c : MapEnv} (h : SepOK p hk tr W kw vw) (hc : c.good) (hf : OvFits c (tr vw)) {ops : List MapOp}
    (hops : ∀ op ∈ ops, OvValid c (tr vw) hk W kw op) {t' : Tab (SepStore KB VB) MapOv} {as : List Ans}
    (ht' : Tab.run (sepMapOv p hk c) (Tab.new (sepMapOv p hk c) kw vw) ops = .ok (t', as)) {N : Nat} (hN : ReserveAtMost (2 ^ N) ops) :
    t'.bucketCount ≤ max (max 16 (2 ^ (hk.width kw - Nat.log2 p.maxSize))) (2 ^ N) := by
  obtain ⟨t, ht⟩ := sep_exists h (fun op hop => ValidOp.weaken (hops op hop))
  exact Nat.le_trans (C124_overflow_smaller h hc hf hops ht' ht) (C111_separate_buckets h (fun op hop => ValidOp.weaken (hops op hop)) ht hN)

/-- the calls of `ovExOps`: 32 buckets with `map_overflow`, 64 without -/
example : ∃ t t' as, Tab.run (sepMapOv exCfg (.xorshift 16) ovEx) (Tab.new (sepMapOv exCfg (.xorshift 16) ovEx) 10 20) ovExOps = .ok (t', as) ∧
    SepAfter exCfg (.xorshift 16) 10 20 ovExOps t ∧ t'.bucketCount ≤ t.bucketCount := by
  obtain ⟨t', as, h1, _, _⟩ := ovExAfter
  obtain ⟨t, ht⟩ := sep_exists exOK (fun op hop => ValidOp.weaken (ovExOps_valid op hop))
  exact ⟨t, t', as, h1, ht, C124_overflow_smaller exOK ovEx_good ovEx_fits ovExOps_valid h1 ht⟩

example : (match Tab.run (sepMapOv exCfg (.xorshift 16) ovEx) (Tab.new (sepMapOv exCfg (.xorshift 16) ovEx) 10 20) ovExOps,
      Tab.run (sepMap exCfg (.xorshift 16)) (Tab.new (sepMap exCfg (.xorshift 16)) 10 20) ovExOps with
    | .ok (t', _), .ok (t, _) => some (t'.bucketCount, t.bucketCount)
    | _, _ => none) = some (32, 64) := by decide +kernel

end SC
