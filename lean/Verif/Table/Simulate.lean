import Verif.Table.Run
/-!
# Two tables whose storage is related

If each storage function of one table, whenever it succeeds, is matched by the function of another table on related storages, then whole
runs of the first table are matched by runs of the second one.
-/
namespace SC

/-- if `r` succeeds, `r'` succeeds with a related result -/
def Sim {α β : Type} (P : α → β → Prop) (r : Res α) (r' : Res β) : Prop := ∀ x, r = .ok x → ∃ x', r' = .ok x' ∧ P x x'

section
variable {α β γ δ : Type} {P : α → β → Prop} {Q : γ → δ → Prop}

theorem Sim.ok {x : α} {x' : β} (h : P x x') : Sim P (.ok x) (.ok x') := by
  intro y hy
  cases hy
  exact ⟨x', rfl, h⟩

theorem Sim.pure {x : α} {x' : β} (h : P x x') : Sim P (Pure.pure x) (Pure.pure x') := Sim.ok h

theorem Sim.error {e : Fault} {r : Res β} : Sim P (.error e) r := by
  intro x hx
  cases hx

theorem Sim.bind {r : Res α} {r' : Res β} {f : α → Res γ} {f' : β → Res δ} (h : Sim P r r')
    (hf : ∀ x x', P x x' → Sim Q (f x) (f' x')) : Sim Q (r >>= f) (r' >>= f') := by
  intro y hy
  obtain ⟨x, h1, h2⟩ := bind_eq_ok hy
  obtain ⟨x', h3, h4⟩ := h x h1
  obtain ⟨y', h5, h6⟩ := hf x x' h4 y h2
  exact ⟨y', by rw [h3]; exact h5, h6⟩

theorem Sim.refl (r : Res α) : Sim Eq r r := fun x h => ⟨x, h, rfl⟩

/-- the first steps are the same -/
theorem Sim.same {r : Res α} {f : α → Res γ} {f' : α → Res δ} (hf : ∀ x, r = .ok x → Sim Q (f x) (f' x)) : Sim Q (r >>= f) (r >>= f') := by
  intro y hy
  obtain ⟨x, h1, h2⟩ := bind_eq_ok hy
  obtain ⟨y', h5, h6⟩ := hf x h1 y h2
  exact ⟨y', by rw [h1]; exact h5, h6⟩

theorem Sim.ite {c : Prop} [Decidable c] {a b : Res α} {a' b' : Res β} (h1 : c → Sim P a a') (h2 : ¬ c → Sim P b b') :
    Sim P (if c then a else b) (if c then a' else b') := by
  by_cases h : c
  · rw [if_pos h, if_pos h]; exact h1 h
  · rw [if_neg h, if_neg h]; exact h2 h

theorem Sim.mono {P' : α → β → Prop} {r : Res α} {r' : Res β} (h : Sim P r r') (hp : ∀ x x', P x x' → P' x x') : Sim P' r r' := by
  intro x hx
  obtain ⟨x', h1, h2⟩ := h x hx
  exact ⟨x', h1, hp _ _ h2⟩

theorem Sim.foldlM {ι : Type} {f : α → ι → Res α} {f' : β → ι → Res β} (l : List ι) (hf : ∀ x x' i, P x x' → Sim P (f x i) (f' x' i)) :
    ∀ x x', P x x' → Sim P (l.foldlM f x) (l.foldlM f' x') := by
  induction l with
  | nil => intro x x' h; exact Sim.pure h
  | cons i l ih =>
    intro x x' h
    simp only [List.foldlM_cons]
    exact Sim.bind (hf x x' i h) ih

end

variable {S S' O : Type}

/-- the storage functions `a` are matched by `b` on storages related by `R`; `push` is only called if `full` has said no -/
structure StoreSim (a : StoreOps S) (b : StoreOps S') (R : S → S' → Dim → Prop) : Prop where
  alloc : ∀ d, Sim (R · · d) (a.alloc d) (b.alloc d)
  size : ∀ {s s' d}, R s s' d → ∀ i, Sim Eq (a.size s d i) (b.size s' d i)
  locate : ∀ {s s' d}, R s s' d → ∀ i q, Sim Eq (a.locate s d i q) (b.locate s' d i q)
  full : ∀ {s s' d}, R s s' d → ∀ i, Sim Eq (a.full s d i) (b.full s' d i)
  push : ∀ {s s' d}, R s s' d → ∀ i q v, a.full s d i = .ok false → Sim (R · · d) (a.push s d i q v) (b.push s' d i q v)
  quotientAt : ∀ {s s' d}, R s s' d → ∀ i j, Sim Eq (a.quotientAt s d i j) (b.quotientAt s' d i j)
  valueAt : ∀ {s s' d}, R s s' d → ∀ i j, Sim Eq (a.valueAt s d i j) (b.valueAt s' d i j)
  writeValue : ∀ {s s' d}, R s s' d → ∀ i j v, Sim (R · · d) (a.writeValue s d i j v) (b.writeValue s' d i j v)
  eraseAt : ∀ {s s' d}, R s s' d → ∀ i j, Sim (R · · d) (a.eraseAt s d i j) (b.eraseAt s' d i j)
  shrink : ∀ {s s' d}, R s s' d → ∀ i, Sim (R · · d) (a.shrink s d i) (b.shrink s' d i)

/-- two release configurations that differ in the storage only -/
structure CfgSim (g : Cfg S O) (g' : Cfg S' O) (R : S → S' → Dim → Prop) : Prop where
  ops : StoreSim g.ops g'.ops R
  ov : g'.ov = g.ov
  hash : g'.hash = g.hash
  initBuckets : g'.initBuckets = g.initBuckets
  initBpg : g'.initBpg = g.initBpg
  rehashBpg : g'.rehashBpg = g.rehashBpg
  noStore : ∀ d, R g.noStore g'.noStore d
  debug : g.debug = false
  debug' : g'.debug = false

/-- the tables agree except for the storage, and the storages are related -/
structure TabSim (g : Cfg S O) (R : S → S' → Dim → Prop) (t : Tab S O) (t' : Tab S' O) : Prop where
  kw : t'.kw = t.kw
  vw : t'.vw = t.vw
  tb : t'.tb = t.tb
  elems : t'.elems = t.elems
  bpg : t'.bpg = t.bpg
  ovf : t'.ovf = t.ovf
  store : R t.store t'.store (t.dim g)

variable {g : Cfg S O} {g' : Cfg S' O} {R : S → S' → Dim → Prop} {t : Tab S O} {t' : Tab S' O}

theorem TabSim.count (h : TabSim g R t t') : t'.bucketCount = t.bucketCount := by unfold Tab.bucketCount; rw [h.tb]

theorem CfgSim.dim (hc : CfgSim g g' R) (h : TabSim g R t t') : t'.dim g' = t.dim g := by
  unfold Tab.dim Tab.hash
  rw [h.kw, h.vw, h.tb, h.bpg, hc.hash]

theorem CfgSim.new (hc : CfgSim g g' R) (kw vw : Nat) : TabSim g R (Tab.new g kw vw) (Tab.new g' kw vw) where
  kw := rfl
  vw := rfl
  tb := rfl
  elems := rfl
  bpg := hc.initBpg
  ovf := by unfold Tab.new; rw [hc.ov]
  store := hc.noStore _

theorem CfgSim.reserveEmpty (hc : CfgSim g g' R) (h : TabSim g R t t') (n : Nat) :
    Sim (TabSim g R) (t.reserveEmpty g n) (t'.reserveEmpty g' n) := by
  unfold Tab.reserveEmpty
  refine Sim.same fun bits _ => ?_
  simp only [hc.debug, hc.debug', ddcheck_off, ok_bind]
  have hd : ({ t' with tb := bits } : Tab S' O).dim g' = ({ t with tb := bits } : Tab S O).dim g := by
    unfold Tab.dim Tab.hash
    simp only [h.kw, h.vw, h.bpg, hc.hash]
  rw [hd, hc.ov, h.ovf]
  refine Sim.bind (hc.ops.alloc _) fun s s' hs => ?_
  refine Sim.same fun o _ => ?_
  exact Sim.pure ⟨h.kw, h.vw, rfl, h.elems, h.bpg, rfl, hs⟩

/-- related functions `ins` -/
def InsSim (g : Cfg S O) (R : S → S' → Dim → Prop) (ins : Tab S O → Nat → Nat → Res (Tab S O × Nav))
    (ins' : Tab S' O → Nat → Nat → Res (Tab S' O × Nav)) : Prop :=
  ∀ t t' k v, TabSim g R t t' → Sim (fun x x' => TabSim g R x.1 x'.1 ∧ x'.2 = x.2) (ins t k v) (ins' t' k v)

variable {ins : Tab S O → Nat → Nat → Res (Tab S O × Nav)} {ins' : Tab S' O → Nat → Nat → Res (Tab S' O × Nav)}

theorem CfgSim.moveBucket (hc : CfgSim g g' R) (h : TabSim g R t t') (hi : InsSim g R ins ins') (b : Nat) {tmp : Tab S O}
    {tmp' : Tab S' O} (ht : TabSim g R tmp tmp') : Sim (TabSim g R) (t.moveBucket g ins tmp b) (t'.moveBucket g' ins' tmp' b) := by
  unfold Tab.moveBucket
  rw [hc.dim h]
  refine Sim.bind (hc.ops.size h.store b) ?_
  rintro n _ rfl
  refine Sim.foldlM _ ?_ _ _ ht
  intro x x' i hx
  refine Sim.bind (hc.ops.quotientAt h.store b i) ?_
  rintro q _ rfl
  have e : (t'.hash g').invMap q b t'.tb = (t.hash g).invMap q b t.tb := by
    unfold Tab.hash
    rw [h.kw, h.tb, hc.hash]
  rw [e]
  refine Sim.same fun k _ => ?_
  refine Sim.bind (hc.ops.valueAt h.store b i) ?_
  rintro v _ rfl
  refine Sim.bind (hi x x' k v hx) ?_
  intro y y' hy
  exact Sim.pure hy.1

theorem CfgSim.moveOverflow (hc : CfgSim g g' R) (h : TabSim g R t t') (hi : InsSim g R ins ins') : ∀ (f i : Nat) {tmp : Tab S O}
    {tmp' : Tab S' O}, TabSim g R tmp tmp' → Sim (TabSim g R) (t.moveOverflow g ins f i tmp) (t'.moveOverflow g' ins' f i tmp') := by
  intro f
  induction f with
  | zero => intro i tmp tmp' _; exact Sim.error
  | succ f ih =>
    intro i tmp tmp' ht
    simp only [Tab.moveOverflow, hc.ov, h.ovf]
    refine Sim.ite (fun _ => ?_) (fun _ => Sim.ok ht)
    refine Sim.same fun k _ => Sim.same fun v _ => Sim.bind (hi _ _ k v ht) ?_
    intro y y' hy
    exact ih _ hy.1

theorem checkTally_release {S : Type} {g : Cfg S O} (hg : g.debug = false) (t : Tab S O) : t.checkTally g = .ok () := by
  unfold Tab.checkTally
  rw [hg]
  rfl

theorem CfgSim.reserveWith (hc : CfgSim g g' R) (h : TabSim g R t t') (hi : InsSim g R ins ins') (n nkw : Nat) :
    Sim (TabSim g R) (t.reserveWith g ins n nkw) (t'.reserveWith g' ins' n nkw) := by
  unfold Tab.reserveWith
  refine Sim.same fun bits _ => ?_
  rw [h.tb]
  refine Sim.ite (fun _ => hc.reserveEmpty h n) (fun _ => ?_)
  have h0 : TabSim g R ({ Tab.new g (if nkw = 0 then t.kw else nkw) t.vw with bpg := g.rehashBpg } : Tab S O)
      ({ Tab.new g' (if nkw = 0 then t'.kw else nkw) t'.vw with bpg := g'.rehashBpg } : Tab S' O) := by
    rw [h.kw, h.vw, hc.rehashBpg]
    have := hc.new (if nkw = 0 then t.kw else nkw) t.vw
    exact ⟨this.kw, this.vw, this.tb, this.elems, rfl, this.ovf, hc.noStore _⟩
  refine Sim.bind (hc.reserveEmpty h0 _) ?_
  intro tmp tmp' h1
  rw [h.count]
  refine Sim.bind (Sim.foldlM _ (fun x x' b hx => hc.moveBucket h hi b hx) _ _ h1) ?_
  intro tmp tmp' h2
  rw [checkTally_release hc.debug, checkTally_release hc.debug', ok_bind, ok_bind, hc.ov, h.ovf]
  refine Sim.bind (hc.moveOverflow h hi _ _ h2) ?_
  intro tmp tmp' h3
  simp only [hc.debug, hc.debug', ddcheck_off, ok_bind]
  exact Sim.pure h3

theorem checkMap_release {S : Type} {g : Cfg S O} (hg : g.debug = false) (t : Tab S O) (k q b : Nat) : t.checkMap g k q b = .ok () := by
  unfold Tab.checkMap
  rw [hg]
  rfl

theorem checkValid_release {S : Type} {g : Cfg S O} (hg : g.debug = false) (t : Tab S O) (n : Nav) : t.checkValid g n = .ok () := by
  unfold Tab.checkValid
  rw [hg]
  rfl

theorem CfgSim.findOrInsert (hc : CfgSim g g' R) : ∀ f, InsSim g R (Tab.findOrInsert g f) (Tab.findOrInsert g' f) := by
  intro f
  induction f with
  | zero => intro t t' k v _; exact Sim.error
  | succ f ih =>
    intro t t' k v h
    simp only [Tab.findOrInsert, hc.debug, hc.debug', ddcheck_off, ok_bind, checkMap_release hc.debug, checkMap_release hc.debug']
    refine Sim.bind (P := TabSim g R) ?_ ?_
    · rw [h.tb, h.kw, hc.initBuckets]
      exact Sim.ite (fun _ => hc.reserveEmpty h _) (fun _ => Sim.ok h)
    clear h
    intro t t' h
    have e : (t'.hash g').map k t'.tb = (t.hash g).map k t.tb := by
      unfold Tab.hash
      rw [h.kw, h.tb, hc.hash]
    rw [e]
    refine Sim.same fun qb _ => ?_
    obtain ⟨q, b⟩ := qb
    simp only
    rw [hc.dim h]
    refine Sim.bind (hc.ops.locate h.store b q) ?_
    rintro pos _ rfl
    refine Sim.ite (fun _ => Sim.pure ⟨h, rfl⟩) (fun _ => ?_)
    rw [hc.ov, h.ovf]
    refine Sim.same fun consult _ => Sim.same fun opos _ => ?_
    refine Sim.ite (fun _ => Sim.pure ⟨h, by rw [h.count]⟩) (fun _ => ?_)
    refine Sim.bind (P := fun x x' => x' = x ∧ g.ops.full t.store (t.dim g) b = .ok x) ?_ ?_
    · intro x hx
      obtain ⟨x', h1, h2⟩ := hc.ops.full h.store b x hx
      exact ⟨x', h1, h2.symm, hx⟩
    rintro _ full ⟨rfl, hfull⟩
    cases full with
    | true =>
      simp only [if_true]
      refine Sim.same fun op _ => ?_
      obtain ⟨o, p⟩ := op
      simp only
      refine Sim.ite (fun _ => ?_) (fun _ => ?_)
      · refine Sim.pure ⟨⟨h.kw, h.vw, h.tb, ?_, h.bpg, rfl, h.store⟩, ?_⟩
        · show t'.elems + 1 = t.elems + 1
          rw [h.elems]
        · show Nav.mk t'.bucketCount p = Nav.mk t.bucketCount p
          rw [h.count]
      · have h1 : TabSim g R ({ t with ovf := o } : Tab S O) ({ t' with ovf := o } : Tab S' O) :=
          ⟨h.kw, h.vw, h.tb, h.elems, h.bpg, rfl, h.store⟩
        rw [h.tb]
        refine Sim.same fun n _ => ?_
        have h2 : TabSim g R ({ t with ovf := o } : Tab S O) ({ kw := t'.kw, vw := t'.vw, tb := t'.tb, elems := t'.elems, bpg := t'.bpg, store := t'.store, ovf := o } : Tab S' O) := h1
        rw [h.tb] at h2
        refine Sim.bind (hc.reserveWith h2 ih n 0) ?_
        intro x x' hx
        exact ih x x' k v hx
    | false =>
      simp only [Bool.false_eq_true, if_false]
      refine Sim.bind (hc.ops.size h.store b) ?_
      rintro n _ rfl
      refine Sim.bind (hc.ops.push h.store b q v hfull) ?_
      intro s s' hs
      refine Sim.pure ⟨⟨h.kw, h.vw, h.tb, ?_, h.bpg, rfl, hs⟩, rfl⟩
      show t'.elems + 1 = t.elems + 1
      rw [h.elems]

theorem CfgSim.invalid (hc : CfgSim g g' R) (h : TabSim g R t t') (n : Nav) : Sim Eq (t.invalid g n) (t'.invalid g' n) := by
  unfold Tab.invalid
  rw [hc.ov, h.ovf, h.count, hc.dim h]
  refine Sim.ite (fun _ => Sim.ok rfl) (fun _ => Sim.ite (fun _ => Sim.ok rfl) (fun _ => ?_))
  refine Sim.bind (hc.ops.size h.store _) ?_
  rintro x _ rfl
  exact Sim.pure rfl

theorem CfgSim.navEq (hc : CfgSim g g' R) (h : TabSim g R t t') (a b : Nav) : Sim Eq (t.navEq g a b) (t'.navEq g' a b) := by
  unfold Tab.navEq
  refine Sim.bind (hc.invalid h b) ?_
  rintro x _ rfl
  refine Sim.bind (hc.invalid h a) ?_
  rintro y _ rfl
  exact Sim.pure rfl

theorem CfgSim.hashEq (hc : CfgSim g g' R) (h : TabSim g R t t') : t'.hash g' = t.hash g := by
  unfold Tab.hash
  rw [h.kw, hc.hash]

theorem CfgSim.find (hc : CfgSim g g' R) (h : TabSim g R t t') (k : Nat) : Sim Eq (t.find g k) (t'.find g' k) := by
  unfold Tab.find
  simp only [checkMap_release hc.debug, checkMap_release hc.debug', ok_bind]
  rw [h.tb, hc.ov, h.ovf, h.count, hc.dim h, hc.hashEq h]
  refine Sim.ite (fun _ => Sim.pure rfl) (fun _ => ?_)
  refine Sim.same fun p _ => Sim.ite (fun _ => Sim.pure rfl) (fun _ => Sim.same fun qb _ => ?_)
  refine Sim.bind (hc.ops.locate h.store _ _) ?_
  rintro x _ rfl
  exact Sim.ite (fun _ => Sim.pure rfl) (fun _ => Sim.pure rfl)

theorem CfgSim.count (hc : CfgSim g g' R) (h : TabSim g R t t') (k : Nat) : Sim Eq (t.count g k) (t'.count g' k) := by
  unfold Tab.count
  refine Sim.bind (hc.find h k) ?_
  rintro x _ rfl
  refine Sim.bind (hc.navEq h _ _) ?_
  rintro x _ rfl
  exact Sim.pure rfl

theorem CfgSim.locate (hc : CfgSim g g' R) (h : TabSim g R t t') (k : Nat) : Sim Eq (t.locate g k) (t'.locate g' k) := by
  unfold Tab.locate
  simp only [checkMap_release hc.debug, checkMap_release hc.debug', ok_bind]
  rw [h.tb, hc.ov, h.ovf, h.count, hc.dim h, hc.hashEq h]
  refine Sim.ite (fun _ => Sim.error) (fun _ => ?_)
  refine Sim.same fun qb _ => Sim.same fun cn _ => Sim.same fun p _ => Sim.ite (fun _ => Sim.pure rfl) (fun _ => ?_)
  refine Sim.bind (hc.ops.locate h.store _ _) ?_
  rintro x _ rfl
  exact Sim.pure rfl

theorem CfgSim.valueAt (hc : CfgSim g g' R) (h : TabSim g R t t') (n : Nav) : Sim Eq (t.valueAt g n) (t'.valueAt g' n) := by
  unfold Tab.valueAt
  simp only [checkValid_release hc.debug, checkValid_release hc.debug', ok_bind, hc.debug, hc.debug', ddcheck_off]
  rw [hc.ov, h.ovf, h.count, hc.dim h]
  exact Sim.ite (fun _ => Sim.refl _) (fun _ => Sim.ite (fun _ => Sim.refl _) (fun _ => hc.ops.valueAt h.store _ _))

theorem CfgSim.keyAt (hc : CfgSim g g' R) (h : TabSim g R t t') (n : Nav) : Sim Eq (t.keyAt g n) (t'.keyAt g' n) := by
  unfold Tab.keyAt
  simp only [checkValid_release hc.debug, checkValid_release hc.debug', ok_bind, hc.debug, hc.debug', ddcheck_off]
  rw [hc.ov, h.ovf, h.count, hc.dim h, h.tb, hc.hashEq h]
  refine Sim.ite (fun _ => Sim.refl _) (fun _ => ?_)
  refine Sim.bind (hc.ops.quotientAt h.store _ _) ?_
  rintro x _ rfl
  exact Sim.refl _

theorem CfgSim.writeValue (hc : CfgSim g g' R) (h : TabSim g R t t') (n : Nav) (v : Nat) :
    Sim (TabSim g R) (t.writeValue g n v) (t'.writeValue g' n v) := by
  unfold Tab.writeValue
  simp only [hc.debug, hc.debug', ddcheck_off, ok_bind]
  rw [hc.ov, h.ovf, h.count, hc.dim h]
  refine Sim.ite (fun _ => Sim.same fun o _ => Sim.pure ?_) (fun _ => ?_)
  · exact ⟨h.kw, h.vw, h.tb, h.elems, h.bpg, rfl, h.store⟩
  · refine Sim.bind (hc.ops.writeValue h.store _ _ _) ?_
    intro s s' hs
    exact Sim.pure ⟨h.kw, h.vw, h.tb, h.elems, h.bpg, rfl, hs⟩

theorem CfgSim.eraseNav (hc : CfgSim g g' R) (h : TabSim g R t t') (n : Nav) :
    Sim (fun x x' => TabSim g R x.1 x'.1 ∧ x'.2 = x.2) (t.eraseNav g n) (t'.eraseNav g' n) := by
  have he : t'.elems - 1 = t.elems - 1 := by rw [h.elems]
  unfold Tab.eraseNav
  simp only [hc.debug, hc.debug', ddcheck_off, ok_bind]
  rw [hc.ov, h.ovf, h.count, hc.dim h]
  refine Sim.ite (fun _ => Sim.pure ⟨h, rfl⟩) (fun _ => Sim.ite (fun _ => Sim.same fun o _ => Sim.pure ⟨?_, rfl⟩) (fun _ => ?_))
  · exact ⟨h.kw, h.vw, h.tb, he, h.bpg, rfl, h.store⟩
  · refine Sim.bind (hc.ops.eraseAt h.store _ _) ?_
    intro s s' hs
    exact Sim.pure ⟨⟨h.kw, h.vw, h.tb, he, h.bpg, rfl, hs⟩, rfl⟩

theorem CfgSim.erase (hc : CfgSim g g' R) (h : TabSim g R t t') (k : Nat) :
    Sim (fun x x' => TabSim g R x.1 x'.1 ∧ x'.2 = x.2) (t.erase g k) (t'.erase g' k) := by
  unfold Tab.erase
  rw [h.tb]
  refine Sim.ite (fun _ => Sim.pure ⟨h, rfl⟩) (fun _ => ?_)
  refine Sim.bind (hc.locate h k) ?_
  rintro n _ rfl
  exact hc.eraseNav h n

theorem CfgSim.shrink (hc : CfgSim g g' R) (h : TabSim g R t t') : Sim (TabSim g R) (t.shrink g) (t'.shrink g') := by
  unfold Tab.shrink
  rw [h.tb, h.count]
  refine Sim.ite (fun _ => Sim.pure h) (fun _ => Sim.foldlM _ ?_ _ _ h)
  intro x x' b hx
  rw [hc.dim hx]
  refine Sim.bind (hc.ops.shrink hx.store _) ?_
  intro s s' hs
  exact Sim.pure ⟨hx.kw, hx.vw, hx.tb, hx.elems, hx.bpg, hx.ovf, hs⟩

theorem CfgSim.clear (hc : CfgSim g g' R) (h : TabSim g R t t') : TabSim g R (t.clear g) (t'.clear g') := by
  refine ⟨h.kw, h.vw, rfl, rfl, h.bpg, ?_, hc.noStore _⟩
  show g'.ov.clear t'.ovf = g.ov.clear t.ovf
  rw [hc.ov, h.ovf]

/-- one call -/
theorem CfgSim.step (hc : CfgSim g g' R) (h : TabSim g R t t') (op : MapOp) :
    Sim (fun x x' => TabSim g R x.1 x'.1 ∧ x'.2 = x.2) (t.step g op) (t'.step g' op) := by
  cases op with
  | insert k v =>
    refine Sim.bind (hc.findOrInsert _ _ _ k v h) ?_
    rintro ⟨t, _⟩ ⟨t', n⟩ ⟨h, rfl⟩
    refine Sim.bind (hc.keyAt h n) ?_
    rintro x _ rfl
    refine Sim.bind (hc.valueAt h n) ?_
    rintro y _ rfl
    exact Sim.pure ⟨h, rfl⟩
  | get k =>
    refine Sim.bind (hc.findOrInsert _ _ _ k 0 h) ?_
    rintro ⟨t, _⟩ ⟨t', n⟩ ⟨h, rfl⟩
    refine Sim.bind (hc.valueAt h n) ?_
    rintro y _ rfl
    exact Sim.pure ⟨h, rfl⟩
  | assign k v =>
    refine Sim.bind (hc.findOrInsert _ _ _ k 0 h) ?_
    rintro ⟨t, _⟩ ⟨t', n⟩ ⟨h, rfl⟩
    refine Sim.bind (hc.writeValue h n v) ?_
    intro x x' hx
    exact Sim.pure ⟨hx, rfl⟩
  | find k =>
    refine Sim.bind (hc.find h k) ?_
    rintro n _ rfl
    refine Sim.bind (hc.navEq h _ _) ?_
    rintro e _ rfl
    refine Sim.ite (fun _ => Sim.pure ⟨h, rfl⟩) (fun _ => ?_)
    refine Sim.bind (hc.keyAt h n) ?_
    rintro x _ rfl
    refine Sim.bind (hc.valueAt h n) ?_
    rintro y _ rfl
    exact Sim.pure ⟨h, rfl⟩
  | count k =>
    refine Sim.bind (hc.count h k) ?_
    rintro n _ rfl
    exact Sim.pure ⟨h, rfl⟩
  | erase k =>
    refine Sim.bind (hc.erase h k) ?_
    rintro ⟨t, _⟩ ⟨t', n⟩ ⟨h, rfl⟩
    exact Sim.pure ⟨h, rfl⟩
  | size => exact Sim.ok ⟨h, by simp only [Tab.size, h.elems]⟩
  | empty => exact Sim.ok ⟨h, by simp only [Tab.isEmpty, h.elems]⟩
  | reserve n =>
    refine Sim.bind (hc.reserveWith h (hc.findOrInsert _) n 0) ?_
    intro x x' hx
    exact Sim.pure ⟨hx, rfl⟩
  | shrink =>
    refine Sim.bind (hc.shrink h) ?_
    intro x x' hx
    exact Sim.pure ⟨hx, rfl⟩
  | clear => exact Sim.ok ⟨hc.clear h, rfl⟩

/-- any number of calls -/
theorem CfgSim.run (hc : CfgSim g g' R) (ops : List MapOp) : ∀ {t : Tab S O} {t' : Tab S' O}, TabSim g R t t' →
    Sim (fun x x' => TabSim g R x.1 x'.1 ∧ x'.2 = x.2) (Tab.run g t ops) (Tab.run g' t' ops) := by
  induction ops with
  | nil => intro t t' h; exact Sim.ok ⟨h, rfl⟩
  | cons op ops ih =>
    intro t t' h
    refine Sim.bind (hc.step h op) ?_
    rintro ⟨t, a⟩ ⟨t', _⟩ ⟨h, rfl⟩
    refine Sim.bind (ih h) ?_
    rintro ⟨t, as⟩ ⟨t', _⟩ ⟨h, rfl⟩
    exact Sim.pure ⟨h, rfl⟩

end SC
