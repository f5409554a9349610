import Verif.Keysplit.Model
import Verif.Table.Observe
import Verif.Sep.Table
/-!
# `keysplit_adapter`: proofs
-/
namespace SC
variable {M : Type}

theorem KsCfg.interval_mul {c : KsCfg} (hl : 1 ≤ c.len) : c.maxBits ≤ c.interval * c.len := by
  unfold interval ceilDiv
  have h := Nat.div_add_mod (c.maxBits + c.len - 1) c.len
  have := Nat.mod_lt (c.maxBits + c.len - 1) (show c.len > 0 by omega)
  rw [Nat.mul_comm]
  omega

theorem KsCfg.interval_pos {c : KsCfg} (hm : 1 ≤ c.maxBits) (hl : 1 ≤ c.len) : 1 ≤ c.interval :=
  (Nat.le_div_iff_mul_le (by omega)).mpr (by omega)

theorem bitWidth_bounds {k n : Nat} (hn : 1 ≤ n) (hk : k < 2 ^ n) : 1 ≤ bitWidth k ∧ bitWidth k ≤ n ∧ k < 2 ^ bitWidth k := by
  unfold bitWidth
  split
  · next h => subst h; exact ⟨by omega, by omega, by decide⟩
  · next h =>
    refine ⟨by omega, ?_, Nat.lt_log2_self⟩
    have := (Nat.log2_lt h).mpr hk
    omega

theorem KsCfg.slot_lt {c : KsCfg} (hm : 1 ≤ c.maxBits) (hl : 1 ≤ c.len) {k : Nat} (hk : k < 2 ^ c.maxBits) : c.slot k < c.len := by
  obtain ⟨h1, h2, h3⟩ := bitWidth_bounds hm hk
  have h4 := c.interval_mul hl
  have h5 := c.interval_pos hm hl
  simp only [slot]
  rw [if_neg (by omega), Nat.div_lt_iff_lt_mul (by omega), Nat.mul_comm]
  omega

theorem KsCfg.slot_fits {c : KsCfg} (hm : 1 ≤ c.maxBits) (hl : 1 ≤ c.len) {k : Nat} (hk : k < 2 ^ c.maxBits) :
    k < 2 ^ c.width (c.slot k) := by
  obtain ⟨h1, h2, h3⟩ := bitWidth_bounds hm hk
  have h5 := c.interval_pos hm hl
  refine Nat.lt_of_lt_of_le h3 (Nat.pow_le_pow_right (by omega) ?_)
  have h6 : bitWidth k - 1 < ((bitWidth k - 1) / c.interval + 1) * c.interval := by
    rw [Nat.mul_comm]; exact Nat.lt_mul_div_succ _ (by omega)
  unfold width
  simp only [slot]
  rw [if_neg (by omega)]
  omega

/-- `step` on an object made by `new w` gives the answers of a finite map -/
structure GoodMap (mc : MapClass M) (tr : Nat → Nat) (w : Nat) (valid : MapOp → Prop) (R : M → FMap → Prop) : Prop where
  new : R (mc.new w) FMap.empty
  step : ∀ m f op, R m f → valid op → ∃ m', mc.step m op = .ok (m', (f.step tr op).2) ∧ R m' (f.step tr op).1
  size : ∀ m f, R m f → mc.size m = f.size
  pos : ∀ m f k v, R m f → f.get k = some v → 1 ≤ f.size

/-- the calls with a key -/
def KsOp.key : KsOp → Option Nat
  | .get k | .assign k _ | .find k | .count k | .erase k => some k
  | _ => none

theorem KsCfg.step_key {mc : MapClass M} {c : KsCfg} {ms : Nat → M} {op : KsOp} {k : Nat} (h : op.key = some k) :
    c.step mc ms op = c.route mc ms k op.call := by
  cases op <;> simp only [KsOp.key, Option.some.injEq, reduceCtorEq] at h <;> subst h <;> rfl

/-- A call with key `k` depends on the value of `k` only and changes no other. -/
theorem step_local {tr : Nat → Nat} {op : KsOp} {k : Nat} (hop : op.key = some k) {f m : FMap} (he : f.get k = m.get k)
    (hf : ∀ v, f.get k = some v → 1 ≤ f.size) (hle : f.size ≤ m.size) :
    (f.step tr op.call).2 = (m.step tr op.call).2 ∧
    (f.step tr op.call).1.get k = (m.step tr op.call).1.get k ∧
    (∀ x, x ≠ k → (f.step tr op.call).1.get x = f.get x ∧ (m.step tr op.call).1.get x = m.get x) ∧
    (f.step tr op.call).1.size + m.size = f.size + (m.step tr op.call).1.size := by
  have hm : ∀ v, m.get k = some v → 1 ≤ f.size := fun v hv => hf v (he.trans hv)
  cases hg : m.get k with
  | none =>
    rw [hg] at he
    cases op <;> simp only [KsOp.key, Option.some.injEq, reduceCtorEq] at hop <;> subst hop <;>
      simp +contextual [KsOp.call, FMap.step, FMap.put, FMap.del, he, hg] <;> omega
  | some v =>
    have h1 := hm v hg
    rw [hg] at he
    cases op <;> simp only [KsOp.key, Option.some.injEq, reduceCtorEq] at hop <;> subst hop <;>
      simp +contextual [KsOp.call, FMap.step, FMap.put, FMap.del, he, hg] <;> omega

/-- sum over the first `n` indices -/
theorem foldl_sum (s : Nat → Nat) (n : Nat) : ∀ a, (List.range n).foldl (fun b i => b + s i) a = a + ((List.range n).map s).sum := by
  generalize List.range n = l
  induction l with
  | nil => intro a; simp
  | cons x l ih => intro a; simp [ih]; omega

theorem sum_upd (s s' : Nat → Nat) (j : Nat) (h : ∀ i, i ≠ j → s' i = s i) : ∀ n, j < n →
    ((List.range n).map s').sum + s j = ((List.range n).map s).sum + s' j := by
  have low : ∀ n, n ≤ j → ((List.range n).map s').sum = ((List.range n).map s).sum := by
    intro n
    induction n with
    | zero => intro _; rfl
    | succ n ih =>
      intro hn
      simp only [List.range_succ, List.map_append, List.sum_append, List.map_cons, List.map_nil, List.sum_cons, List.sum_nil]
      rw [ih (by omega), h n (by omega)]
  intro n
  induction n with
  | zero => intro h; omega
  | succ n ih =>
    intro hj
    simp only [List.range_succ, List.map_append, List.sum_append, List.map_cons, List.map_nil, List.sum_cons, List.sum_nil]
    by_cases e : j = n
    · subst e; rw [low j (by omega)]; omega
    · have := ih (by omega)
      rw [h n (by omega)]
      omega

theorem sum_zero (n : Nat) : ((List.range n).map (fun _ => 0)).sum = 0 := by
  induction n with
  | zero => rfl
  | succ n ih => simp [List.range_succ, ih]

theorem le_sum (s : Nat → Nat) (n j : Nat) (hj : j < n) : s j ≤ ((List.range n).map s).sum := by
  induction n with
  | zero => omega
  | succ n ih =>
    simp only [List.range_succ, List.map_append, List.sum_append, List.map_cons, List.map_nil, List.sum_cons, List.sum_nil]
    by_cases e : j = n
    · subst e; omega
    · have := ih (by omega); omega

/-- the tables together make up the finite map `m` -/
structure KsInv (c : KsCfg) (R : Nat → M → FMap → Prop) (ms : Nat → M) (m : FMap) (f : Nat → FMap) : Prop where
  rel : ∀ i < c.len, R i (ms i) (f i)
  get : ∀ i < c.len, ∀ k, (f i).get k = if c.slot k = i then m.get k else none
  size : m.size = ((List.range c.len).map (fun i => (f i).size)).sum

/-- the calls that are allowed: keys are at most `max_key()` -/
def KsValid (c : KsCfg) (op : KsOp) : Prop := ∀ k, op.key = some k → k < 2 ^ c.maxBits

variable {mc : MapClass M} {c : KsCfg} {tr : Nat → Nat} {R : Nat → M → FMap → Prop} {valid : Nat → MapOp → Prop}

theorem ksAll_ok (hg : ∀ i < c.len, GoodMap mc tr (c.width i) (valid i) (R i)) (op : MapOp) (hop : ∀ i < c.len, valid i op)
    (f : Nat → FMap) : ∀ n i ms, i + n = c.len → (∀ j, i ≤ j → j < c.len → R j (ms j) (f j)) →
    ∃ ms', ksAll mc op n i ms = .ok ms' ∧ (∀ j < i, ms' j = ms j) ∧
      ∀ j, i ≤ j → j < c.len → R j (ms' j) ((f j).step tr op).1 := by
  intro n
  induction n with
  | zero => intro i ms hi _; exact ⟨ms, rfl, fun _ _ => rfl, fun j h1 h2 => by omega⟩
  | succ n ih =>
    intro i ms hi hr
    obtain ⟨m', h1, h2⟩ := (hg i (by omega)).step (ms i) (f i) op (hr i (by omega) (by omega)) (hop i (by omega))
    obtain ⟨ms', h3, h4, h5⟩ := ih (i + 1) (upd ms i m') (by omega) (fun j hj1 hj2 => by
      rw [upd_other _ _ (by omega)]; exact hr j (by omega) hj2)
    refine ⟨ms', ?_, ?_, ?_⟩
    · simp only [ksAll, h1, ok_bind, h3]
    · intro j hj
      rw [h4 j (by omega), upd_other _ _ (by omega)]
    · intro j hj1 hj2
      by_cases e : j = i
      · subst e
        rw [h4 j (by omega), upd_same]
        exact h2
      · exact h5 j (by omega) hj2

theorem KsInv.step (hm : 1 ≤ c.maxBits) (hl : 1 ≤ c.len) (hg : ∀ i < c.len, GoodMap mc tr (c.width i) (valid i) (R i))
    (hv : ∀ i < c.len, ∀ op : KsOp, (∀ k, op.key = some k → k < 2 ^ c.width i) → valid i op.call)
    {ms : Nat → M} {m : FMap} {f : Nat → FMap} (h : KsInv c R ms m f) (op : KsOp) (hop : KsValid c op) :
    ∃ ms' f', c.step mc ms op = .ok (ms', (m.step tr op.call).2) ∧ KsInv c R ms' (m.step tr op.call).1 f' := by
  cases hk : op.key with
  | some k =>
    have hk' := hop k hk
    have hs := c.slot_lt hm hl hk'
    have hfit := c.slot_fits hm hl hk'
    have hval : valid (c.slot k) op.call := hv _ hs op (fun x hx => by rw [hk] at hx; cases hx; exact hfit)
    obtain ⟨m', h1, h2⟩ := (hg _ hs).step _ _ _ (h.rel _ hs) hval
    have he : (f (c.slot k)).get k = m.get k := by rw [h.get _ hs, if_pos rfl]
    obtain ⟨l1, l2, l3, l4⟩ := step_local (tr := tr) hk he (fun v hv => (hg _ hs).pos _ _ _ _ (h.rel _ hs) hv)
      (by rw [h.size]; exact le_sum (fun i => (f i).size) _ _ hs)
    refine ⟨upd ms (c.slot k) m', upd f (c.slot k) ((f (c.slot k)).step tr op.call).1, ?_, ?_, ?_, ?_⟩
    · rw [KsCfg.step_key hk, KsCfg.route, if_pos hs, h1, ← l1]; rfl
    · intro i hi
      by_cases e : i = c.slot k
      · subst e; rw [upd_same, upd_same]; exact h2
      · rw [upd_other _ _ e, upd_other _ _ e]; exact h.rel i hi
    · intro i hi x
      by_cases ex : x = k
      · subst ex
        by_cases e : i = c.slot x
        · subst e; rw [upd_same, if_pos rfl]; exact l2
        · rw [upd_other _ _ e, h.get i hi, if_neg (Ne.symm e), if_neg (Ne.symm e)]
      · rw [(l3 x ex).2]
        by_cases e : i = c.slot k
        · subst e; rw [upd_same, (l3 x ex).1]; exact h.get _ hi x
        · rw [upd_other _ _ e]; exact h.get i hi x
    · have := sum_upd (fun i => (f i).size) (fun i => (upd f (c.slot k) ((f (c.slot k)).step tr op.call).1 i).size) (c.slot k)
        (fun i hi => by simp only [upd_other _ _ hi]) c.len hs
      simp only [upd_same] at this
      have := h.size
      omega
  | none =>
    have hall : ∀ i < c.len, valid i op.call := fun i hi => hv i hi op (fun k h => by rw [hk] at h; cases h)
    cases op with
    | size =>
      refine ⟨ms, f, ?_, h⟩
      simp only [KsCfg.step, KsOp.call, FMap.step, KsCfg.size, foldl_sum (fun i => mc.size (ms i)), Nat.zero_add]
      have : (List.range c.len).map (fun i => mc.size (ms i)) = (List.range c.len).map (fun i => (f i).size) :=
        List.map_congr_left (fun i hi => (hg i (List.mem_range.mp hi)).size _ _ (h.rel i (List.mem_range.mp hi)))
      rw [this, h.size]
    | shrink =>
      obtain ⟨ms', h1, _, h2⟩ := ksAll_ok hg .shrink hall f c.len 0 ms (by omega) (fun j _ hj => h.rel j hj)
      refine ⟨ms', f, ?_, fun i hi => h2 i (by omega) hi, h.get, h.size⟩
      simp only [KsCfg.step, h1, ok_bind]; rfl
    | clear =>
      obtain ⟨ms', h1, _, h2⟩ := ksAll_ok hg .clear hall f c.len 0 ms (by omega) (fun j _ hj => h.rel j hj)
      refine ⟨ms', fun _ => FMap.empty, ?_, fun i hi => h2 i (by omega) hi, ?_, ?_⟩
      · simp only [KsCfg.step, h1, ok_bind]; rfl
      · intro i hi k; simp [KsOp.call, FMap.step, FMap.empty]
      · exact (sum_zero _).symm
    | _ => cases hk

theorem KsInv.new (hg : ∀ i < c.len, GoodMap mc tr (c.width i) (valid i) (R i)) :
    KsInv c R (c.new mc) FMap.empty (fun _ => FMap.empty) where
  rel := fun i hi => (hg i hi).new
  get := by simp [FMap.empty]
  size := (sum_zero _).symm

theorem KsInv.run (hm : 1 ≤ c.maxBits) (hl : 1 ≤ c.len) (hg : ∀ i < c.len, GoodMap mc tr (c.width i) (valid i) (R i))
    (hv : ∀ i < c.len, ∀ op : KsOp, (∀ k, op.key = some k → k < 2 ^ c.width i) → valid i op.call) (ops : List KsOp) :
    ∀ {ms : Nat → M} {m : FMap} {f : Nat → FMap}, KsInv c R ms m f → (∀ op ∈ ops, KsValid c op) →
    ∃ ms' f', c.run mc ms ops = .ok (ms', m.run tr (ops.map KsOp.call)) ∧ KsInv c R ms' (m.after tr (ops.map KsOp.call)) f' := by
  induction ops with
  | nil => intro ms m f h _; exact ⟨ms, f, rfl, h⟩
  | cons op ops ih =>
    intro ms m f h hops
    obtain ⟨ms1, f1, h1, h2⟩ := h.step hm hl hg hv op (hops op (by simp))
    obtain ⟨ms2, f2, h3, h4⟩ := ih h2 (fun op h => hops op (by simp [h]))
    refine ⟨ms2, f2, ?_, h4⟩
    simp only [KsCfg.run, h1, ok_bind, h3, List.map_cons, FMap.run]; rfl

/-! ## Tables -/

variable {S : Type}

/-- the hash table classes as `map_type`; `vw` is the default value width of the constructor -/
def tabClass (g : Cfg S Unit) (vw : Nat) : MapClass (Tab S Unit) where
  new := fun w => Tab.new g w vw
  step := fun t op => t.step g op
  size := fun t => t.size

theorem Sem.good {g : Cfg S Unit} {P : Par S Unit} (L : Laws g P) (hg : P.grow < 65) {vw : Nat} (hvw : P.vw = vw) {tr : Nat → Nat}
    (htr : P.norm P.vw = tr) : GoodMap (tabClass g vw) tr P.kw (OpOK P) (Sem g P) where
  new := ⟨[], by subst hvw; exact Inv.new L, Abs.empty⟩
  step := fun m f op h hop => by
    obtain ⟨t', h1, h2⟩ := h.step L hg op hop
    rw [htr] at h1 h2
    exact ⟨t', h1, h2⟩
  size := fun m f h => h.size
  pos := fun m f k v h hk => by
    obtain ⟨l, _, ha⟩ := h
    rw [ha.size]
    exact List.length_pos_of_mem ((ha.get k v).mp hk)

end SC
