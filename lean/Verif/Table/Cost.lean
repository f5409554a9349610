import Verif.Table.Buckets
/-!
# Counting how often `find_or_insert` is executed

The functions below are those of `Table/Tab` and `Table/Run`, extended by a counter; `findOrInsertC_forget` and `runC_forget` state that without the
counter they are the same.
-/
namespace SC
variable {S O : Type}

/-- `Tab.moveBucket` (sep:445-453, cmp:327-341, grp:1001-1015) with a counter -/
def Tab.moveBucketC (g : Cfg S O) (ins : Tab S O → Nat → Nat → Res ((Tab S O × Nav) × Nat)) (t : Tab S O) (tmp : Tab S O × Nat) (b : Nat) :
    Res (Tab S O × Nat) := do
  let n ← g.ops.size t.store (t.dim g) b
  (List.range n).foldlM (fun tmp i => do
    let q ← g.ops.quotientAt t.store (t.dim g) b i
    let k ← (t.hash g).invMap q b t.tb
    let v ← g.ops.valueAt t.store (t.dim g) b i
    let r ← ins tmp.1 k v
    return (r.1.1, tmp.2 + r.2)) tmp

/-- `Tab.moveOverflow` (sep:457-461, grp:1025-1029) with a counter -/
def Tab.moveOverflowC (g : Cfg S O) (ins : Tab S O → Nat → Nat → Res ((Tab S O × Nav) × Nat)) (t : Tab S O) :
    Nat → Nat → Tab S O × Nat → Res (Tab S O × Nat)
  | 0, _, _ => .error .fuel
  | f + 1, i, tmp =>
    if g.ov.validPosition t.ovf i then do
      let k ← g.ov.key t.ovf i
      let v ← g.ov.read t.ovf i
      let r ← ins tmp.1 k v
      Tab.moveOverflowC g ins t f (g.ov.nextPosition t.ovf i) (r.1.1, tmp.2 + r.2)
    else .ok tmp

/-- `Tab.reserveWith` (sep:416-468, cmp:297-346, grp:958-1035) with a counter -/
def Tab.reserveWithC (g : Cfg S O) (ins : Tab S O → Nat → Nat → Res ((Tab S O × Nav) × Nat)) (t : Tab S O) (n nkw : Nat) :
    Res (Tab S O × Nat) := do
  let bits ← reserveBits n
  if t.tb = 0 then
    let t ← t.reserveEmpty g n
    return (t, 0)
  else
    let tmp := { Tab.new g (if nkw = 0 then t.kw else nkw) t.vw with bpg := g.rehashBpg }
    let tmp ← tmp.reserveEmpty g (2 ^ bits)
    let tmp ← (List.range t.bucketCount).foldlM (fun tmp b => t.moveBucketC g ins tmp b) (tmp, 0)
    t.checkTally g
    let tmp ← t.moveOverflowC g ins (g.ov.size t.ovf + 1) (g.ov.firstPosition t.ovf) tmp
    ddcheck g.debug (t.elems = tmp.1.elems)
    return tmp

/-- `Tab.findOrInsert` (sep:610-684, cmp:568-615, grp:1185-1277), and how often the function has been executed -/
def Tab.findOrInsertC (g : Cfg S O) : Nat → Tab S O → Nat → Nat → Res ((Tab S O × Nav) × Nat)
  | 0, _, _, _ => .error .fuel
  | f + 1, t, k, v => do
    ddcheck g.debug (1 < t.kw)
    let t ← (if t.tb = 0 then t.reserveEmpty g (min (t.kw - 1) g.initBuckets) else .ok t : Res (Tab S O))
    let (q, b) ← (t.hash g).map k t.tb
    t.checkMap g k q b
    let pos ← g.ops.locate t.store (t.dim g) b q
    if pos ≠ NPOS then return ((t, ⟨b, pos⟩), 1)
    let consult ← g.ov.needConsult t.ovf b
    let opos ← (if consult then g.ov.find t.ovf k else .ok NPOS : Res Nat)
    if opos ≠ NPOS then return ((t, ⟨t.bucketCount, opos⟩), 1)
    let full ← g.ops.full t.store (t.dim g) b
    if full then
      let (o, p) ← (if g.ov.size t.ovf < g.ov.capacity t.ovf then g.ov.insert t.ovf b k v
        else .ok (t.ovf, NPOS) : Res (O × Nat))
      let t := { t with ovf := o }
      if p ≠ NPOS then return (({ t with elems := t.elems + 1 }, ⟨t.bucketCount, p⟩), 1)
      let n ← shl64 1 (t.tb + 1)
      let t ← t.reserveWithC g (Tab.findOrInsertC g f) n 0
      let r ← Tab.findOrInsertC g f t.1 k v
      return (r.1, 1 + t.2 + r.2)
    else
      let n ← g.ops.size t.store (t.dim g) b
      let s ← g.ops.push t.store (t.dim g) b q v
      return (({ t with elems := t.elems + 1, store := s }, ⟨b, n⟩), 1)

/-- One call by a user, `Tab.step`, and the number of executions of `find_or_insert` in it.  The other functions do not call it. -/
def Tab.stepC (g : Cfg S O) (t : Tab S O) : MapOp → Res ((Tab S O × Ans) × Nat)
  | .insert k v => do
    let ((t, n), c) ← t.findOrInsertC g depth k v
    let k' ← t.keyAt g n
    let x ← t.valueAt g n
    return ((t, .pair k' x), c)
  | .get k => do
    let ((t, n), c) ← t.findOrInsertC g depth k 0
    let x ← t.valueAt g n
    return ((t, .num x), c)
  | .assign k v => do
    let ((t, n), c) ← t.findOrInsertC g depth k 0
    let t ← t.writeValue g n v
    return ((t, .none), c)
  | .reserve n => do
    let (t, c) ← t.reserveWithC g (Tab.findOrInsertC g depth) n 0
    return ((t, .none), c)
  | op => do
    let r ← t.step g op
    return (r, 0)

/-- a sequence of calls -/
def Tab.runC (g : Cfg S O) (t : Tab S O) : List MapOp → Res ((Tab S O × List Ans) × Nat)
  | [] => .ok ((t, []), 0)
  | op :: ops => do
    let ((t, a), c) ← t.stepC g op
    let ((t, as), c') ← Tab.runC g t ops
    return ((t, a :: as), c + c')

/-! ## Without the counter -/

/-- `x` is `y` with a counter -/
def Counts {α : Type} (x : Res (α × Nat)) (y : Res α) : Prop := (x >>= fun r => .ok r.1) = y

namespace Counts
variable {α β γ : Type}

theorem ok (a : α) (n : Nat) : Counts (.ok (a, n)) (.ok a) := rfl

theorem pure (a : α) (n : Nat) : Counts (Pure.pure (a, n)) (Pure.pure a) := rfl

theorem error (e : Fault) : Counts (.error e : Res (α × Nat)) (.error e) := rfl

theorem skip {x : Res γ} {f : γ → Res (α × Nat)} {h : γ → Res α} (hf : ∀ a, Counts (f a) (h a)) : Counts (x >>= f) (x >>= h) := by
  cases x with
  | error e => rfl
  | ok a => exact hf a

theorem bind {x : Res (γ × Nat)} {y : Res γ} {f : γ × Nat → Res (α × Nat)} {h : γ → Res α} (hx : Counts x y) (hf : ∀ a, Counts (f a) (h a.1)) :
    Counts (x >>= f) (y >>= h) := by
  unfold Counts at hx
  subst hx
  cases x with
  | error e => rfl
  | ok a => exact hf a

theorem ite {c : Prop} [Decidable c] {x x' : Res (α × Nat)} {y y' : Res α} (h1 : Counts x y) (h2 : Counts x' y') :
    Counts (if c then x else x') (if c then y else y') := by
  split
  · exact h1
  · exact h2

theorem foldlM {f : α × Nat → β → Res (α × Nat)} {h : α → β → Res α} (hf : ∀ a b, Counts (f a b) (h a.1 b)) : ∀ (l : List β) (a : α × Nat),
    Counts (l.foldlM f a) (l.foldlM h a.1) := by
  intro l
  induction l with
  | nil => intro a; rfl
  | cons b l ih => intro a; rw [List.foldlM_cons, List.foldlM_cons]; exact bind (hf a b) ih

/-- there is a count -/
theorem get {x : Res (α × Nat)} {y : Res α} (h : Counts x y) {a : α} (hy : y = .ok a) : ∃ n, x = .ok (a, n) := by
  subst hy
  obtain ⟨⟨b, n⟩, h1, h2⟩ := bind_eq_ok h
  cases h2
  exact ⟨n, h1⟩

end Counts

variable {g : Cfg S O}

theorem moveOverflowC_forget {insC : Tab S O → Nat → Nat → Res ((Tab S O × Nav) × Nat)} {ins : Tab S O → Nat → Nat → Res (Tab S O × Nav)}
    (hi : ∀ t k v, Counts (insC t k v) (ins t k v)) (t : Tab S O) : ∀ f i (tmp : Tab S O × Nat),
    Counts (t.moveOverflowC g insC f i tmp) (t.moveOverflow g ins f i tmp.1) := by
  intro f
  induction f with
  | zero => intro i tmp; rfl
  | succ f ih =>
    intro i tmp
    unfold Tab.moveOverflowC Tab.moveOverflow
    refine Counts.ite (Counts.skip fun k => Counts.skip fun v => Counts.bind (hi _ _ _) fun r => ?_) rfl
    exact ih _ (r.1.1, tmp.2 + r.2)

theorem reserveWithC_forget {insC : Tab S O → Nat → Nat → Res ((Tab S O × Nav) × Nat)} {ins : Tab S O → Nat → Nat → Res (Tab S O × Nav)}
    (hi : ∀ t k v, Counts (insC t k v) (ins t k v)) (t : Tab S O) (n nkw : Nat) : Counts (t.reserveWithC g insC n nkw) (t.reserveWith g ins n nkw) := by
  unfold Tab.reserveWithC Tab.reserveWith
  refine Counts.skip fun bits => Counts.ite ?_ ?_
  · cases t.reserveEmpty g n <;> rfl
  · refine Counts.skip fun tmp => Counts.bind (Counts.foldlM (fun tmp b => ?_) _ (tmp, 0)) fun tmp => ?_
    · unfold Tab.moveBucketC Tab.moveBucket
      refine Counts.skip fun n => Counts.foldlM (fun tmp i => ?_) _ tmp
      exact Counts.skip fun q => Counts.skip fun k => Counts.skip fun v => Counts.bind (hi _ _ _) fun r => rfl
    · exact Counts.skip fun _ => Counts.bind (moveOverflowC_forget hi _ _ _ _) fun tmp => Counts.skip fun _ => rfl

theorem findOrInsertC_forget : ∀ (f : Nat) (t : Tab S O) (k v : Nat), Counts (t.findOrInsertC g f k v) (t.findOrInsert g f k v) := by
  intro f
  induction f with
  | zero => intro t k v; rfl
  | succ f ih =>
    intro t k v
    unfold Tab.findOrInsertC Tab.findOrInsert
    refine Counts.skip fun _ => Counts.skip fun t => Counts.skip fun ⟨q, b⟩ => Counts.skip fun _ => Counts.skip fun pos => Counts.ite rfl ?_
    refine Counts.skip fun consult => Counts.skip fun opos => Counts.ite rfl ?_
    refine Counts.skip fun full => Counts.ite ?_ ?_
    · refine Counts.skip fun ⟨o, p⟩ => Counts.ite rfl ?_
      refine Counts.skip fun n => Counts.bind (reserveWithC_forget ih _ _ _) fun t => ?_
      have := ih t.1 k v
      unfold Counts at this ⊢
      rw [← this]
      cases t.1.findOrInsertC g f k v <;> rfl
    · exact Counts.skip fun n => Counts.skip fun s => rfl

theorem stepC_forget (t : Tab S O) (op : MapOp) : Counts (t.stepC g op) (t.step g op) := by
  have other : ∀ x : Res (Tab S O × Ans), Counts (x >>= fun r => Pure.pure (r, 0)) x := by
    intro x; cases x <;> rfl
  cases op with
  | insert k v => exact Counts.bind (findOrInsertC_forget _ _ _ _) fun ⟨⟨t, n⟩, c⟩ => Counts.skip fun _ => Counts.skip fun _ => rfl
  | get k => exact Counts.bind (findOrInsertC_forget _ _ _ _) fun ⟨⟨t, n⟩, c⟩ => Counts.skip fun _ => rfl
  | assign k v => exact Counts.bind (findOrInsertC_forget _ _ _ _) fun ⟨⟨t, n⟩, c⟩ => Counts.skip fun _ => rfl
  | reserve n => exact Counts.bind (reserveWithC_forget (findOrInsertC_forget _) _ _ _) fun ⟨t, c⟩ => rfl
  | find k => exact other _
  | count k => exact other _
  | erase k => exact other _
  | size => exact other _
  | empty => exact other _
  | shrink => exact other _
  | clear => exact other _

theorem runC_forget : ∀ (ops : List MapOp) (t : Tab S O), Counts (t.runC g ops) (t.run g ops) := by
  intro ops
  induction ops with
  | nil => intro t; rfl
  | cons op ops ih =>
    intro t
    unfold Tab.runC Tab.run
    exact Counts.bind (stepC_forget t op) fun ⟨⟨t, a⟩, c⟩ => Counts.bind (ih t) fun ⟨⟨t, as⟩, c'⟩ => rfl

/-! ## The cost of one insertion -/

variable {P : Par S O}

/-- insert one pair, with a counter -/
def insStepC (ins : Tab S O → Nat → Nat → Res ((Tab S O × Nav) × Nat)) (tmp : Tab S O × Nat) (e : Nat × Nat) : Res (Tab S O × Nat) := do
  let r ← ins tmp.1 e.1 e.2
  return (r.1.1, tmp.2 + r.2)

theorem Live.moveBucketC (L : Laws g P) {t : Tab S O} {c : Cont} {o : List (Nat × Nat × Nat)} {full : Nat → Bool}
    (h : Live g P t c o full) (ins : Tab S O → Nat → Nat → Res ((Tab S O × Nav) × Nat)) (tmp : Tab S O × Nat) {b : Nat}
    (hb : b < 2 ^ t.tb) :
    t.moveBucketC g ins tmp b = (bEnts (g.hash P.kw) t.tb b (c b)).foldlM (insStepC ins) tmp := by
  unfold Tab.moveBucketC
  rw [L.store.size _ _ _ _ (h.good L) h.rep hb, ok_bind, bEnts, List.foldlM_map]
  apply foldlM_range
  intro tmp i hi
  have hm := h.cok.src b hb _ (List.getElem_mem hi)
  obtain ⟨k, hk, hm⟩ := hm
  have hinv := (invKey_of_map (h.map_ok L) hk hm)
  simp only [L.store.quotientAt _ _ _ _ _ (h.good L) h.rep hb hi, L.store.valueAt _ _ _ _ _ (h.good L) h.rep hb hi,
    ok_bind, h.hash, hinv.2.2.2, hinv.1, insStepC]

theorem walk_moveC (ins : Tab S O → Nat → Nat → Res ((Tab S O × Nav) × Nat)) (t : Tab S O) :
    ∀ (l : List (Nat × Nat × Nat)) (f i : Nat) (tmp : Tab S O × Nat), OvWalk g.ov t.ovf i l → l.length < f →
    (∀ e ∈ l, g.ov.key t.ovf e.1 = .ok e.2.1 ∧ g.ov.read t.ovf e.1 = .ok e.2.2) →
    t.moveOverflowC g ins f i tmp = (l.map (fun e => e.2)).foldlM (insStepC ins) tmp := by
  intro l
  induction l with
  | nil =>
    intro f i tmp h hf _
    obtain ⟨f, rfl⟩ : ∃ f', f = f' + 1 := ⟨f - 1, by simp at hf; omega⟩
    have h : g.ov.validPosition t.ovf i = false := h
    simp [Tab.moveOverflowC, h]
  | cons e l ih =>
    intro f i tmp h hf hr
    obtain ⟨f, rfl⟩ : ∃ f', f = f' + 1 := ⟨f - 1, by simp at hf; omega⟩
    obtain ⟨rfl, h2, h3⟩ := h
    obtain ⟨r1, r2⟩ := hr e (by simp)
    simp only [Tab.moveOverflowC, h2, if_true, r1, r2, ok_bind, List.map_cons, List.foldlM_cons, insStepC]
    cases ins tmp.1 e.2.1 e.2.2 with
    | error x => rfl
    | ok r =>
      simp only [ok_bind, pure_eq_ok]
      exact ih f _ _ h3 (by simp at hf; omega) (fun e he => hr e (by simp [he]))

/-- the counter of a rehash counts the insertions of all pairs into a new table -/
theorem Live.rehashC (L : Laws g P) {t : Tab S O} {c : Cont} {o : List (Nat × Nat × Nat)} {full : Nat → Bool}
    (h : Live g P t c o full) (ins : Tab S O → Nat → Nat → Res ((Tab S O × Nav) × Nat)) (tmp : Tab S O × Nat) :
    (do
      let tmp ← (List.range t.bucketCount).foldlM (fun tmp b => t.moveBucketC g ins tmp b) tmp
      t.moveOverflowC g ins (g.ov.size t.ovf + 1) (g.ov.firstPosition t.ovf) tmp : Res (Tab S O × Nat)) =
    (ents (g.hash P.kw) t.tb c o).foldlM (insStepC ins) tmp := by
  have e1 : (List.range t.bucketCount).foldlM (fun tmp b => t.moveBucketC g ins tmp b) tmp =
      (stored (g.hash P.kw) t.tb c).foldlM (insStepC ins) tmp := by
    rw [stored, foldlM_flatMap, h.bc L]
    apply foldlM_congr_mem
    intro tmp b hb
    exact h.moveBucketC L ins tmp (by simpa using hb)
  rw [e1, ents, List.foldlM_append]
  cases (stored (g.hash P.kw) t.tb c).foldlM (insStepC ins) tmp with
  | error x => rfl
  | ok tmp =>
    simp only [ok_bind]
    apply walk_moveC
    · exact L.ovf.walk _ _ _ _ h.orep
    · rw [h.osize L]; omega
    · intro e he
      exact ⟨L.ovf.key _ _ _ _ _ h.orep he, L.ovf.read _ _ _ _ _ h.orep he⟩

/-- the cost of one execution, as it is proved below -/
def CostOK (g : Cfg S O) (P : Par S O) (f : Nat) : Prop := ∀ t l k v r c, Inv g P t l → k < 2 ^ P.kw → P.normO v = P.norm P.vw v → FuelOK P f t →
  t.findOrInsertC g f k v = .ok (r, c) → c ≤ 1 + (r.1.tb - t.tb) * (l.length + 1)

/-- inserting pairs one after the other -/
theorem insAllC (L : Laws g P) {f : Nat} (ih : CostOK g P f) : ∀ (xs : List (Nat × Nat)) (t t' : Tab S O) (n n' : Nat) (l : List (Nat × Nat)),
    Inv g P t l → FuelOK P f t → (∀ e ∈ xs, e.1 < 2 ^ P.kw ∧ P.norm P.vw e.2 = e.2) → ((l ++ xs).map Prod.fst).Nodup →
    xs.foldlM (insStepC (Tab.findOrInsertC g f)) (t, n) = .ok (t', n') →
    t.tb ≤ t'.tb ∧ n' ≤ n + xs.length + (t'.tb - t.tb) * (l.length + xs.length) := by
  intro xs
  induction xs with
  | nil => intro t t' n n' l _ _ _ _ hs; cases hs; exact ⟨Nat.le_refl _, by simp⟩
  | cons e xs ihx =>
    intro t t' n n' l h hf hx hnd hs
    obtain ⟨hk, hv⟩ := hx e (by simp)
    have hvo : P.normO e.2 = P.norm P.vw e.2 := by
      have := L.normO_norm e.2
      rw [hv] at this
      rw [this, hv]
    have hnm : e.1 ∉ l.map Prod.fst := by
      rw [List.map_append, List.map_cons] at hnd
      intro hmem
      have h3 := (List.nodup_append.mp hnd).2.2
      exact h3 _ hmem _ (by simp) rfl
    obtain ⟨t1, nv, h1, h2, h3, h4⟩ := ins_ok L f t l e.1 e.2 h hk hvo hf
    obtain ⟨c1, h5⟩ := (findOrInsertC_forget (g := g) f t e.1 e.2).get h1
    have hc := ih t l e.1 e.2 _ _ h hk hvo hf h5
    have hinv := InsRes.inv (t := t) (n := nv) h2 hnm
    rw [hv] at hinv
    have hp : ((e :: l) ++ xs).Perm (l ++ e :: xs) := by
      rw [List.cons_append]; exact List.perm_middle.symm
    have hf1 : FuelOK P f t1 := by
      rcases hf with hf | ⟨h5, h6⟩
      · exact .inl hf
      · exact .inr ⟨by omega, by omega⟩
    rw [List.foldlM_cons] at hs
    simp only [insStepC, h5, ok_bind, pure_eq_ok] at hs
    obtain ⟨g1, g2⟩ := ihx t1 t' _ n' (e :: l) hinv hf1 (fun x hx' => hx x (by simp [hx']))
      ((hp.map Prod.fst).nodup_iff.mpr hnd) hs
    refine ⟨by omega, ?_⟩
    simp only [List.length_cons] at g2 hc ⊢
    obtain ⟨a, ha⟩ : ∃ a, t1.tb = t.tb + a := ⟨t1.tb - t.tb, by omega⟩
    obtain ⟨d, hd⟩ : ∃ d, t'.tb = t1.tb + d := ⟨t'.tb - t1.tb, by omega⟩
    rw [show t'.tb - t1.tb = d by omega] at g2
    rw [show t1.tb - t.tb = a by omega] at hc
    rw [show t'.tb - t.tb = a + d by omega]
    have := Nat.zero_le (a * xs.length)
    simp only [Nat.mul_add, Nat.add_mul, Nat.mul_one] at g2 hc ⊢
    omega

/-- the cost of a rehash -/
theorem reserveWithC_cost (L : Laws g P) {f : Nat} (ih : CostOK g P f) {t : Tab S O} {c : Cont} {o : List (Nat × Nat × Nat)} {full : Nat → Bool}
    (h : Live g P t c o full) {n r : Nat} (hr : reserveBits n = .ok r) {t1 : Tab S O}
    (hn : Tab.reserveEmpty g { Tab.new g P.kw P.vw with bpg := g.rehashBpg } (2 ^ r) = .ok t1) (h1 : Inv g P t1 []) (hf : FuelOK P f t1)
    {t' : Tab S O} {n' : Nat} (hs : t.reserveWithC g (Tab.findOrInsertC g f) n 0 = .ok (t', n')) :
    t1.tb ≤ t'.tb ∧ n' ≤ t.elems + (t'.tb - t1.tb) * t.elems := by
  have h0 : Inv g P t (ents (g.hash P.kw) t.tb c o) := .inr ⟨c, o, full, h, .refl _⟩
  unfold Tab.reserveWithC at hs
  rw [hr, ok_bind, if_neg (by have := h.tb_pos L; omega), if_pos rfl, h.tkw, h.tvw] at hs
  simp only [hn, ok_bind] at hs
  obtain ⟨p1, e1, hs⟩ := bind_eq_ok hs
  obtain ⟨_, _, hs⟩ := bind_eq_ok hs
  obtain ⟨p2, e2, hs⟩ := bind_eq_ok hs
  obtain ⟨_, _, hs⟩ := bind_eq_ok hs
  cases hs
  have key := h.rehashC L (Tab.findOrInsertC g f) (t1, 0)
  rw [e1, ok_bind, e2] at key
  have := insAllC L ih _ t1 t' 0 n' [] h1 hf (fun e he => ⟨h0.key_lt L he, h0.val_norm he⟩)
    (by simpa using ents_nodup (h.map_ok L) h.cok) key.symm
  rw [List.length_nil, ← h.elems] at this
  simpa using this

/-- **The number of executions of `find_or_insert` in one insertion**: for each doubling at most one for each pair and one to try again. -/
theorem ins_cost (L : Laws g P) : ∀ f, CostOK g P f := by
  intro f
  induction f with
  | zero => intro t l k v r c _ _ _ _ hs; cases hs
  | succ f ih =>
    intro t l k v r nc h hk hv hf hs
    obtain ⟨t1, c, o, full, ht1, hl, hp, hle, hf1⟩ : ∃ t1 c o full,
        (if t.tb = 0 then t.reserveEmpty g (min (t.kw - 1) g.initBuckets) else .ok t : Res (Tab S O)) = .ok t1 ∧
        Live g P t1 c o full ∧ l.Perm (ents (g.hash P.kw) t1.tb c o) ∧ t.tb ≤ t1.tb ∧ P.grow - t1.tb < f + 1 := by
      rcases h with ⟨h1, h2, h3, h4, h5, h6, rfl, hst, n, full, h7⟩ | ⟨c, o, full, hl, hp⟩
      · obtain ⟨hi1, hi2, hi3⟩ := L.init
        rw [← h1] at hi1
        obtain ⟨t1, full1, g1, g2, g3, _⟩ := reserveEmpty_ok L h1 h2 h3 h4 h6 h7 hst hi1 hi2 hi3
        refine ⟨t1, _, _, full1, by rw [if_pos h5]; exact g1, g2, by rw [ents_nil], by omega, ?_⟩
        rcases hf with hf | ⟨hf, _⟩ <;> omega
      · have := hl.tb_pos L
        refine ⟨t, c, o, full, by rw [if_neg (by omega)], hl, hp, Nat.le_refl _, ?_⟩
        rcases hf with hf | ⟨_, hf⟩ <;> omega
    have hkeys : ∀ x, x ∈ l.map Prod.fst ↔ x ∈ (ents (g.hash P.kw) t1.tb c o).map Prod.fst :=
      fun x => (hp.map Prod.fst).mem_iff
    obtain ⟨q, b, hm, hb⟩ := hl.mapk L hk
    obtain ⟨pos, hpos, hcase⟩ := hl.locate L hk hm
    have hcons := L.ovf.consult _ _ _ _ b hl.orep hb
    have hkw1 : 1 < t.kw := by rw [h.kw_eq]; exact L.kw_gt
    unfold Tab.findOrInsertC at hs
    simp only [ddcheck_ok hkw1, ht1, ok_bind, hl.hash, hm, hl.checkMap L hk hm, hpos, hcons] at hs
    split at hs
    · cases hs; exact Nat.le_add_right _ _
    · rename_i hpn
      have hq' : q ∉ (c b).map Prod.fst := by
        rcases hcase with ⟨_, hq'⟩ | ⟨hne, _⟩
        · exact hq'
        · exact absurd hne hpn
      obtain ⟨opos, ho1, hs⟩ := bind_eq_ok hs
      split at hs
      · cases hs; exact Nat.le_add_right _ _
      · rename_i hon
        have hon : opos = NPOS := by
          by_cases e : opos = NPOS
          · exact e
          · exact absurd e hon
        subst hon
        obtain ⟨p, hpp, hpc⟩ := hl.ofind L k
        have ho : ∀ e ∈ o, e.2.1 ≠ k := by
          by_cases hsc : full b = true
          · rw [if_pos hsc, hpp] at ho1
            cases ho1
            rcases hpc with ⟨_, ho⟩ | ⟨hne, _⟩
            · exact ho
            · exact absurd rfl hne
          · rintro e he rfl
            exact hsc (hl.ofull e he q b hm)
        obtain ⟨fl, hfl, hs⟩ := bind_eq_ok hs
        cases fl with
        | false =>
          simp only [Bool.false_eq_true, if_false] at hs
          obtain ⟨_, _, hs⟩ := bind_eq_ok hs
          obtain ⟨_, _, hs⟩ := bind_eq_ok hs
          cases hs; exact Nat.le_add_right _ _
        | true =>
          have hgrow : t1.tb < P.grow := by
            rcases Nat.lt_or_ge t1.tb P.grow with h | h
            · exact h
            · rw [hl.not_full L h hk hm hq'] at hfl; exact absurd hfl (by simp)
          have hg63 := L.grow_le
          have hhi := L.hi_lt
          simp only [if_true] at hs
          obtain ⟨⟨o1, p1⟩, hins, hs⟩ := bind_eq_ok hs
          simp only at hs
          split at hs
          · cases hs; exact Nat.le_add_right _ _
          · rename_i hp1
            obtain ⟨full', hl'⟩ : ∃ full', Live g P { t1 with ovf := o1 } c o full' := by
              by_cases hcap : g.ov.size t1.ovf < g.ov.capacity t1.ovf
              · rw [if_pos hcap] at hins
                rcases L.ovf.insert _ _ _ _ b k v hl.orep hb hcap ho hv with
                  ⟨o2, full1, g1, g2, g3⟩ | ⟨o2, full1, p2, o', g1, g2, g3, g4, g5, g6⟩
                · rw [g1] at hins
                  cases hins
                  exact ⟨full1, { hl with orep := g2, ofull := fun e he q b hm => g3 _ (hl.ofull e he q b hm) }⟩
                · rw [g1] at hins
                  cases hins
                  exact absurd g2 hp1
              · rw [if_neg hcap] at hins
                cases hins
                exact ⟨full, hl⟩
            have hsh : shl64 1 (t1.tb + 1) = .ok (2 ^ (t1.tb + 1)) := by
              unfold shl64
              rw [if_pos (by omega), Nat.shiftLeft_eq, Nat.one_mul]
              exact congrArg _ (Nat.mod_eq_of_lt (Nat.pow_lt_pow_right (by omega) (by omega)))
            rw [hsh, ok_bind] at hs
            obtain ⟨⟨t2, n2⟩, e2, hs⟩ := bind_eq_ok hs
            obtain ⟨⟨r3, n3⟩, e3, hs⟩ := bind_eq_ok hs
            cases hs
            have e2' : Tab.reserveWithC g (Tab.findOrInsertC g f) { t1 with ovf := o1 } (2 ^ (t1.tb + 1)) 0 = .ok (t2, n2) := e2
            have hinv' : Inv g P { t1 with ovf := o1 } l := .inr ⟨c, o, full', hl', hp⟩
            have hrb : reserveBits (2 ^ (t1.tb + 1)) = .ok (t1.tb + 1) := reserveBits_pow (by omega)
            have hlo := hl.lo
            -- the new table
            obtain ⟨full0, ho0⟩ := L.ovf.new P.kw P.vw
            obtain ⟨t0, full00, k1, k2, k3, _⟩ := reserveEmpty_ok L
              (t := { Tab.new g P.kw P.vw with bpg := g.rehashBpg }) (n := 2 ^ (t1.tb + 1)) (r := t1.tb + 1) rfl rfl L.rbpg_pos L.rbpg_le rfl
              ho0 L.fresh hrb (by omega) (by omega)
            have b1 := reserveWithC_cost L ih hl' hrb k1 (.inr ⟨_, _, _, k2, by rw [ents_nil]⟩)
              (.inr ⟨by omega, by omega⟩) e2'
            -- the same table as in the proof of `ins_ok`
            obtain ⟨t2', g1, g2, g3, g4⟩ := reserveWith_ok L L (Tab.findOrInsert g f) (ins_ok L f) hl' (n := 2 ^ (t1.tb + 1))
              (r := t1.tb + 1) (nkw := 0) hrb (by omega) (by omega) (by simp) rfl (by omega)
              (fun e he => ⟨hinv'.key_lt L (hp.mem_iff.mpr he), hinv'.val_norm (hp.mem_iff.mpr he)⟩)
            obtain ⟨n2', e2''⟩ := (reserveWithC_forget (g := g) (findOrInsertC_forget f) { t1 with ovf := o1 } (2 ^ (t1.tb + 1)) 0).get g1
            rw [e2'] at e2''
            cases e2''
            have g2' : Inv g P t2 l := g2.perm hp
            have b2 := ih t2 l k v _ _ g2' hk hv (.inr ⟨by omega, by omega⟩) e3
            obtain ⟨t3, nv, j1, _, j2, _⟩ := ins_ok L f t2 l k v g2' hk hv (.inr ⟨by omega, by omega⟩)
            obtain ⟨n3', e3'⟩ := (findOrInsertC_forget (g := g) f t2 k v).get j1
            rw [e3] at e3'
            cases e3'
            have hel : t1.elems = l.length := by rw [hl.elems, hp.length_eq]
            obtain ⟨_, b1⟩ := b1
            have b1 : n2 ≤ t1.elems + (t2.tb - t0.tb) * t1.elems := b1
            rw [hel] at b1
            show 1 + n2 + n3 ≤ 1 + (t3.tb - t.tb) * (l.length + 1)
            have b2 : n3 ≤ 1 + (t3.tb - t2.tb) * (l.length + 1) := b2
            generalize l.length = n at b1 b2 ⊢
            obtain ⟨a, ha⟩ : ∃ a, t2.tb = t0.tb + a := ⟨t2.tb - t0.tb, by omega⟩
            obtain ⟨d, hd⟩ : ∃ d, t3.tb = t2.tb + d := ⟨t3.tb - t2.tb, by omega⟩
            obtain ⟨z, hz⟩ : ∃ z, t1.tb = t.tb + z := ⟨t1.tb - t.tb, by omega⟩
            rw [show t2.tb - t0.tb = a by omega] at b1
            rw [show t3.tb - t2.tb = d by omega] at b2
            rw [show t3.tb - t.tb = z + 1 + a + d by omega]
            have := Nat.zero_le (z * n)
            simp only [Nat.mul_add, Nat.add_mul, Nat.mul_one, Nat.one_mul] at b1 b2 ⊢
            omega

/-! ## Whole histories -/

/-- a call of `find_or_insert`, directly or by `operator[]` -/
def MapOp.inserts : MapOp → Bool
  | .insert _ _ => true
  | .get _ => true
  | .assign _ _ => true
  | _ => false

/-- a call of `reserve` -/
def MapOp.reserves : MapOp → Bool
  | .reserve _ => true
  | _ => false

theorem findOrInsertC_pos (f : Nat) (t : Tab S O) (k v : Nat) {r : Tab S O × Nav} {n : Nat} (hs : t.findOrInsertC g f k v = .ok (r, n)) : 1 ≤ n := by
  cases f with
  | zero => cases hs
  | succ f =>
    unfold Tab.findOrInsertC at hs
    obtain ⟨_, _, hs⟩ := bind_eq_ok hs
    obtain ⟨_, _, hs⟩ := bind_eq_ok hs
    obtain ⟨⟨_, _⟩, _, hs⟩ := bind_eq_ok hs
    obtain ⟨_, _, hs⟩ := bind_eq_ok hs
    obtain ⟨_, _, hs⟩ := bind_eq_ok hs
    simp only at hs
    split at hs
    · cases hs; exact Nat.le_refl _
    · obtain ⟨_, _, hs⟩ := bind_eq_ok hs
      obtain ⟨_, _, hs⟩ := bind_eq_ok hs
      split at hs
      · cases hs; exact Nat.le_refl _
      · obtain ⟨_, _, hs⟩ := bind_eq_ok hs
        split at hs
        · obtain ⟨⟨_, _⟩, _, hs⟩ := bind_eq_ok hs
          simp only at hs
          split at hs
          · cases hs; exact Nat.le_refl _
          · obtain ⟨_, _, hs⟩ := bind_eq_ok hs
            obtain ⟨⟨_, n1⟩, _, hs⟩ := bind_eq_ok hs
            obtain ⟨⟨_, n2⟩, _, hs⟩ := bind_eq_ok hs
            cases hs
            show 1 ≤ 1 + n1 + n2
            omega
        · obtain ⟨_, _, hs⟩ := bind_eq_ok hs
          obtain ⟨_, _, hs⟩ := bind_eq_ok hs
          cases hs; exact Nat.le_refl _

/-- every call that inserts counts -/
theorem runC_pos : ∀ (ops : List MapOp) (t : Tab S O) {r : Tab S O × List Ans} {n : Nat}, t.runC g ops = .ok (r, n) → ops.countP MapOp.inserts ≤ n := by
  intro ops
  induction ops with
  | nil => intro t r n _; exact Nat.zero_le _
  | cons op ops ih =>
    intro t r n hs
    unfold Tab.runC at hs
    obtain ⟨⟨⟨t1, a⟩, c⟩, h1, hs⟩ := bind_eq_ok hs
    obtain ⟨⟨⟨t2, as⟩, c'⟩, h2, hs⟩ := bind_eq_ok hs
    cases hs
    show _ ≤ c + c'
    have := ih t1 h2
    rw [List.countP_cons]
    have key : op.inserts = true → 1 ≤ c := by
      intro hi
      cases op with
      | insert k v =>
        simp only [Tab.stepC] at h1
        obtain ⟨⟨⟨t1, n⟩, c⟩, e, h1⟩ := bind_eq_ok h1
        obtain ⟨_, _, h1⟩ := bind_eq_ok h1
        obtain ⟨_, _, h1⟩ := bind_eq_ok h1
        cases h1
        exact findOrInsertC_pos _ _ _ _ e
      | get k =>
        simp only [Tab.stepC] at h1
        obtain ⟨⟨⟨t1, n⟩, c⟩, e, h1⟩ := bind_eq_ok h1
        obtain ⟨_, _, h1⟩ := bind_eq_ok h1
        cases h1
        exact findOrInsertC_pos _ _ _ _ e
      | assign k v =>
        simp only [Tab.stepC] at h1
        obtain ⟨⟨⟨t1, n⟩, c⟩, e, h1⟩ := bind_eq_ok h1
        obtain ⟨_, _, h1⟩ := bind_eq_ok h1
        cases h1
        exact findOrInsertC_pos _ _ _ _ e
      | _ => cases hi
    split
    · have := key ‹_›; omega
    · omega

/-- the cost of `reserve` as called by a user -/
theorem reserve_cost (L : Laws g P) (hg : P.grow < 65) {t t' : Tab S O} {l : List (Nat × Nat)} (h : Inv g P t l) {n nc : Nat}
    (hop : OpOK P (.reserve n)) (hs : t.reserveWithC g (Tab.findOrInsertC g depth) n 0 = .ok (t', nc)) : nc ≤ l.length + t'.tb * l.length := by
  obtain ⟨r, hr, h0, hhi⟩ := hop
  have hlt : r < 64 := Nat.lt_of_le_of_lt hhi L.hi_lt
  have hz := h.size
  rcases h with ⟨_, _, _, _, h5, _⟩ | ⟨c, o, full, hl, hp⟩
  · unfold Tab.reserveWithC at hs
    rw [hr, ok_bind, if_pos h5] at hs
    obtain ⟨_, _, hs⟩ := bind_eq_ok hs
    cases hs
    exact Nat.zero_le _
  · obtain ⟨full0, ho0⟩ := L.ovf.new P.kw P.vw
    have key : ∃ t1, Tab.reserveEmpty g { Tab.new g P.kw P.vw with bpg := g.rehashBpg } (2 ^ r) = .ok t1 ∧ Inv g P t1 [] := by
      rcases h0 with ⟨rfl, hone⟩ | hlo
      · have never := L.never hone
        obtain ⟨s, hs1, hs2⟩ := L.store.alloc (Tab.dim g { { Tab.new g P.kw P.vw with bpg := g.rehashBpg } with tb := 0 })
        obtain ⟨o', full', ho1, ho2⟩ := L.ovf.resize _ _ (2 ^ 0) _ ho0 (by decide)
        refine ⟨{ { Tab.new g P.kw P.vw with bpg := g.rehashBpg } with tb := 0, store := s, ovf := o' }, ?_,
          .inl ⟨rfl, rfl, L.rbpg_pos, L.rbpg_le, rfl, rfl, rfl, never _, _, _, ho2⟩⟩
        have hr0 : reserveBits (2 ^ 0) = .ok 0 := reserveBits_pow (by omega)
        have ho1' : g.ov.resizeBuckets (Tab.new g P.kw P.vw).ovf (2 ^ 0) = .ok o' := ho1
        simp only [Tab.reserveEmpty, hr0, ddcheck_ok (never _), ok_bind, hs1, ho1', pure_eq_ok]
      · obtain ⟨t1, full1, g1, g2, _⟩ := reserveEmpty_ok L (t := { Tab.new g P.kw P.vw with bpg := g.rehashBpg }) (n := 2 ^ r) (r := r) rfl rfl
          L.rbpg_pos L.rbpg_le rfl ho0 L.fresh (reserveBits_pow hlt) hlo hhi
        exact ⟨t1, g1, .inr ⟨_, _, _, g2, by rw [ents_nil]⟩⟩
    obtain ⟨t1, k1, k2⟩ := key
    obtain ⟨_, hc⟩ := reserveWithC_cost L (ins_cost L depth) hl hr k1 k2 (.inl hg) hs
    rw [hz] at hc
    refine Nat.le_trans hc (Nat.add_le_add_left (Nat.mul_le_mul_right _ (Nat.sub_le _ _)) _)

/-- one call: how much the counter and the number of bits of the table can increase.  `J` bounds the number of pairs. -/
theorem step_cost (L : Laws g P) (hg : P.grow < 65) {t t' : Tab S O} {l l' : List (Nat × Nat)} (h : Inv g P t l) (h' : Inv g P t' l') {op : MapOp}
    {a : Ans} {nc : Nat} (hop : OpOK P op) (hs : t.stepC g op = .ok ((t', a), nc)) {J : Nat} (hJ : l.length ≤ J) :
    (op.inserts = true ∧ op.reserves = false ∧ t.tb ≤ t'.tb ∧ nc ≤ 1 + (t'.tb - t.tb) * (J + 1) ∧ l'.length ≤ J + 1) ∨
    (op.inserts = false ∧ op.reserves = true ∧ nc ≤ J + t'.tb * J ∧ l'.length ≤ J) ∨
    (op.inserts = false ∧ op.reserves = false ∧ nc = 0 ∧ (t'.tb = t.tb ∧ l'.length ≤ J ∨ t'.tb = 0 ∧ l'.length = 0)) := by
  have ins : ∀ k v, k < 2 ^ P.kw → P.normO v = P.norm P.vw v → ∀ t1 n c, t.findOrInsertC g depth k v = .ok ((t1, n), c) →
      t.tb ≤ t1.tb ∧ c ≤ 1 + (t1.tb - t.tb) * (J + 1) ∧ t1.elems ≤ J + 1 := by
    intro k v hk hv t1 n c e
    have hc := ins_cost L depth t l k v _ _ h hk hv (.inl hg) e
    obtain ⟨t2, n2, h1, ⟨x, l2, c2, o2, full2, h2, h3, h4, _⟩, h5, _⟩ := ins_ok L depth t l k v h hk hv (.inl hg)
    obtain ⟨_, e'⟩ := (findOrInsertC_forget (g := g) depth t k v).get h1
    rw [e] at e'
    cases e'
    refine ⟨h5, Nat.le_trans hc (Nat.add_le_add_left (Nat.mul_le_mul_left _ (by omega)) _), ?_⟩
    rw [h3.elems, ← h4.length_eq]
    rcases h2 with ⟨_, rfl, _⟩ | ⟨_, _, rfl⟩
    · omega
    · rw [List.length_cons]; omega
  have hz := h.size
  have hz' := h'.size
  have other : ∀ op', (∀ {x}, t.step g op' >>= (fun r => pure (r, 0)) = .ok x → t.step g op' = .ok x.1 ∧ x.2 = 0) := by
    intro op' x hx
    obtain ⟨r, h1, h2⟩ := bind_eq_ok hx
    cases h2
    exact ⟨h1, rfl⟩
  cases op with
  | insert k v =>
    simp only [Tab.stepC] at hs
    obtain ⟨⟨⟨t1, n⟩, c⟩, e, hs⟩ := bind_eq_ok hs
    obtain ⟨_, _, hs⟩ := bind_eq_ok hs
    obtain ⟨_, _, hs⟩ := bind_eq_ok hs
    obtain ⟨rfl, rfl⟩ : t1 = t' ∧ c = nc := by cases hs; exact ⟨rfl, rfl⟩
    obtain ⟨h1, h2, h3⟩ := ins k v hop.1 hop.2 _ _ _ e
    exact .inl ⟨rfl, rfl, h1, h2, by have := h'.size; omega⟩
  | get k =>
    simp only [Tab.stepC] at hs
    obtain ⟨⟨⟨t1, n⟩, c⟩, e, hs⟩ := bind_eq_ok hs
    obtain ⟨_, _, hs⟩ := bind_eq_ok hs
    obtain ⟨rfl, rfl⟩ : t1 = t' ∧ c = nc := by cases hs; exact ⟨rfl, rfl⟩
    obtain ⟨h1, h2, h3⟩ := ins k 0 hop.1 hop.2 _ _ _ e
    exact .inl ⟨rfl, rfl, h1, h2, by have := h'.size; omega⟩
  | assign k v =>
    simp only [Tab.stepC] at hs
    obtain ⟨⟨⟨t1, n⟩, c⟩, e, hs⟩ := bind_eq_ok hs
    obtain ⟨t2, e2, hs⟩ := bind_eq_ok hs
    obtain ⟨rfl, rfl⟩ : t2 = t' ∧ c = nc := by cases hs; exact ⟨rfl, rfl⟩
    obtain ⟨h1, h2, h3⟩ := ins k 0 hop.1 hop.2.2 _ _ _ e
    have e3 : t2.tb = t1.tb ∧ t2.elems = t1.elems := by
      unfold Tab.writeValue at e2
      split at e2
      · obtain ⟨_, _, e2⟩ := bind_eq_ok e2
        cases e2; exact ⟨rfl, rfl⟩
      · obtain ⟨_, _, e2⟩ := bind_eq_ok e2
        obtain ⟨_, _, e2⟩ := bind_eq_ok e2
        cases e2; exact ⟨rfl, rfl⟩
    exact .inl ⟨rfl, rfl, by omega, by rw [e3.1]; exact h2, by have := h'.size; omega⟩
  | reserve n =>
    simp only [Tab.stepC] at hs
    obtain ⟨⟨t1, c⟩, e, hs⟩ := bind_eq_ok hs
    obtain ⟨rfl, rfl⟩ : t1 = t' ∧ c = nc := by cases hs; exact ⟨rfl, rfl⟩
    have hc := reserve_cost L hg h hop e
    have := Nat.mul_le_mul_left t1.tb hJ
    refine .inr (.inl ⟨rfl, rfl, by omega, ?_⟩)
    obtain ⟨r, hr, h0, hhi⟩ := hop
    have key : ∃ t2, t.reserve g n = .ok t2 ∧ Inv g P t2 l := by
      rcases h0 with ⟨rfl, hone⟩ | hlo
      · obtain ⟨t2, h1, h2, _⟩ := h.reserve_one L hg hr hone
        exact ⟨t2, h1, h2⟩
      · obtain ⟨t2, h1, h2, _⟩ := h.reserve L hg hr hlo hhi
        exact ⟨t2, h1, h2⟩
    obtain ⟨t2, h1, h2⟩ := key
    obtain ⟨_, e'⟩ := (reserveWithC_forget (g := g) (findOrInsertC_forget depth) t n 0).get h1
    rw [e] at e'
    cases e'
    have := h2.size
    have := h'.size
    omega
  | find k =>
    obtain ⟨hs, h0⟩ := other (.find k) hs
    refine .inr (.inr ⟨rfl, rfl, h0, .inl ?_⟩)
    simp only [Tab.step] at hs
    obtain ⟨_, _, hs⟩ := bind_eq_ok hs
    obtain ⟨e, _, hs⟩ := bind_eq_ok hs
    cases e with
    | true => cases hs; exact ⟨rfl, by have := h'.size; omega⟩
    | false =>
      simp only [Bool.false_eq_true, if_false] at hs
      obtain ⟨_, _, hs⟩ := bind_eq_ok hs
      obtain ⟨_, _, hs⟩ := bind_eq_ok hs
      cases hs; exact ⟨rfl, by have := h'.size; omega⟩
  | count k =>
    obtain ⟨hs, h0⟩ := other (.count k) hs
    refine .inr (.inr ⟨rfl, rfl, h0, .inl ?_⟩)
    simp only [Tab.step] at hs
    obtain ⟨_, _, hs⟩ := bind_eq_ok hs
    cases hs; exact ⟨rfl, by have := h'.size; omega⟩
  | erase k =>
    obtain ⟨hs, h0⟩ := other (.erase k) hs
    refine .inr (.inr ⟨rfl, rfl, h0, .inl ?_⟩)
    simp only [Tab.step] at hs
    rcases h.erase L (k := k) hop with ⟨t1, v, l1, h1, h2, h3, h4⟩ | ⟨h1, _⟩
    · rw [h1] at hs
      obtain rfl : t1 = t' := by cases hs; rfl
      have h5 := h3.size
      have h6 := h2.length_eq
      rw [List.length_cons] at h6
      exact ⟨h4, by have := h'.size; omega⟩
    · rw [h1] at hs
      obtain rfl : t = t' := by cases hs; rfl
      exact ⟨rfl, by omega⟩
  | size =>
    obtain ⟨hs, h0⟩ := other .size hs
    cases hs
    exact .inr (.inr ⟨rfl, rfl, h0, .inl ⟨rfl, by have := h'.size; omega⟩⟩)
  | empty =>
    obtain ⟨hs, h0⟩ := other .empty hs
    cases hs
    exact .inr (.inr ⟨rfl, rfl, h0, .inl ⟨rfl, by have := h'.size; omega⟩⟩)
  | shrink =>
    obtain ⟨hs, h0⟩ := other .shrink hs
    refine .inr (.inr ⟨rfl, rfl, h0, .inl ?_⟩)
    simp only [Tab.step] at hs
    obtain ⟨t1, h1, h2, h3⟩ := h.shrink L
    rw [h1] at hs
    cases hs
    have := h2.size
    exact ⟨by omega, by have := h'.size; omega⟩
  | clear =>
    obtain ⟨hs, h0⟩ := other .clear hs
    cases hs
    have e : l'.length = 0 := by rw [← hz']; rfl
    exact .inr (.inr ⟨rfl, rfl, h0, .inr ⟨rfl, e⟩⟩)

/-- a sequence of calls, by the potential method: the potential is the number of bits of the table times the number of insertions since `clear` -/
theorem run_cost (L : Laws g P) (hg : P.grow < 65) {N : Nat} : ∀ (ops : List MapOp) {t t' : Tab S O} {l : List (Nat × Nat)} {m : FMap} {as : List Ans}
    {nc J : Nat}, Inv g P t l → Abs l m → (∀ op ∈ ops, OpOK P op) → (∀ n, .reserve n ∈ ops → 1 ≤ n ∧ n ≤ 2 ^ 63 ∧ n ≤ 2 ^ N) →
    t.tb ≤ max (max P.ini P.grow) N → l.length ≤ J → t.runC g ops = .ok ((t', as), nc) →
    nc + t.tb * J ≤ ops.countP MapOp.inserts + max (max P.ini P.grow) N * (J + ops.countP MapOp.inserts) +
      ops.countP MapOp.reserves * ((1 + max (max P.ini P.grow) N) * (J + ops.countP MapOp.inserts)) := by
  generalize hB : max (max P.ini P.grow) N = B
  intro ops
  induction ops with
  | nil =>
    intro t t' l m as nc J _ _ _ _ ht hJ hs
    cases hs
    have := Nat.mul_le_mul_right J ht
    simp only [List.countP_nil, Nat.add_zero, Nat.zero_add, Nat.zero_mul]
    omega
  | cons op ops ih =>
    intro t t' l m as nc J h ha hops hN ht hJ hs
    obtain ⟨t1, l1, h1, h2, h3⟩ := Tab.step_ok L hg h ha op (hops op (by simp))
    have h4 := Tab.step_tb L hg h (N := N) (hops op (by simp)) (fun n hn => hN n (by simp [hn])) h1
    rw [hB] at h4
    obtain ⟨c1, e1⟩ := (stepC_forget (g := g) t op).get h1
    simp only [Tab.runC, e1, ok_bind] at hs
    obtain ⟨⟨⟨t2, as2⟩, c2⟩, e2, hs⟩ := bind_eq_ok hs
    cases hs
    show c1 + c2 + t.tb * J ≤ _
    have ih' := fun {J} (hj : l1.length ≤ J) => ih (J := J) h2 h3 (fun op' hop' => hops op' (by simp [hop'])) (fun n hn => hN n (by simp [hn]))
      (by omega) hj e2
    have ht1 : t1.tb ≤ B := by omega
    rcases step_cost L hg h h2 (hops op (by simp)) e1 hJ with ⟨q1, q2, q3, q4, q5⟩ | ⟨q1, q2, q3, q4⟩ | ⟨q1, q2, q3, q4⟩
    · have := ih' q5
      rw [List.countP_cons, List.countP_cons, q1, q2]
      simp only [if_true, Bool.false_eq_true, if_false, Nat.add_zero]
      generalize ops.countP MapOp.inserts = I at this ⊢
      generalize ops.countP MapOp.reserves = R at this ⊢
      rw [show J + (I + 1) = J + 1 + I by omega]
      obtain ⟨d, hd⟩ : ∃ d, t1.tb = t.tb + d := ⟨t1.tb - t.tb, by omega⟩
      rw [show t1.tb - t.tb = d by omega] at q4
      rw [hd, Nat.add_mul, Nat.mul_add t.tb] at this
      omega
    · have := ih' q4
      rw [List.countP_cons, List.countP_cons, q1, q2]
      simp only [if_true, Bool.false_eq_true, if_false, Nat.add_zero]
      generalize ops.countP MapOp.inserts = I at this ⊢
      generalize ops.countP MapOp.reserves = R at this ⊢
      have x1 : t.tb * J ≤ B * J := Nat.mul_le_mul_right J ht
      have x2 : J + B * J ≤ (1 + B) * (J + I) := by
        rw [Nat.add_mul, Nat.one_mul]
        exact Nat.add_le_add (by omega) (Nat.mul_le_mul_left _ (by omega))
      rw [Nat.add_mul R, Nat.one_mul]
      omega
    · rw [List.countP_cons, List.countP_cons, q1, q2]
      simp only [Bool.false_eq_true, if_false, Nat.add_zero]
      rcases q4 with ⟨q4, q5⟩ | ⟨q4, q5⟩
      · have := ih' q5
        rw [q4] at this
        omega
      · have := ih' (J := 0) (by omega)
        generalize ops.countP MapOp.inserts = I at this ⊢
        generalize ops.countP MapOp.reserves = R at this ⊢
        rw [Nat.zero_add] at this
        have x1 : t.tb * J ≤ B * J := Nat.mul_le_mul_right J ht
        have x2 : R * ((1 + B) * I) ≤ R * ((1 + B) * (J + I)) := Nat.mul_le_mul_left _ (Nat.mul_le_mul_left _ (by omega))
        rw [Nat.mul_add B]
        omega

/-- whole histories -/
theorem fact_cost (L : Laws g P) (hg : P.grow < 65) {kw lo hi : Nat} {vals : Nat → Prop} {ops : List MapOp} (hops : ∀ op ∈ ops, OpOK P op)
    (hv : ∀ op ∈ ops, ValidOp kw lo hi vals op) (hhi : hi < 64) {N : Nat} (hN : ReserveAtMost (2 ^ N) ops) :
    ∃ t as n, Tab.run g (Tab.new g P.kw P.vw) ops = .ok (t, as) ∧ Tab.runC g (Tab.new g P.kw P.vw) ops = .ok ((t, as), n) ∧
      ops.countP MapOp.inserts ≤ n ∧ n ≤ ops.countP MapOp.inserts * (1 + max (max P.ini P.grow) N) * (1 + ops.countP MapOp.reserves) := by
  obtain ⟨t, l, h1, _, _⟩ := Tab.run_new L hg ops hops
  obtain ⟨n, h2⟩ := (runC_forget (g := g) ops _).get h1
  refine ⟨t, _, n, h1, h2, runC_pos ops _ h2, ?_⟩
  have key := run_cost L hg (N := N) (J := 0) ops (Inv.new L) Abs.empty hops (fun n hn => by
    obtain ⟨h1, h2, _⟩ : 1 ≤ n ∧ n ≤ 2 ^ hi ∧ _ := hv _ hn
    exact ⟨h1, Nat.le_trans h2 (Nat.pow_le_pow_right (by omega) (by omega)), hN n hn⟩) (Nat.zero_le _) (Nat.le_refl _) h2
  rw [Nat.mul_zero, Nat.add_zero, Nat.zero_add] at key
  generalize ops.countP MapOp.inserts = I at key ⊢
  generalize ops.countP MapOp.reserves = R at key ⊢
  generalize max (max P.ini P.grow) N = B at key ⊢
  rw [Nat.mul_add (I * (1 + B)), Nat.mul_one, Nat.mul_comm (I * (1 + B)) R, Nat.mul_comm I (1 + B)]
  rw [show (1 + B) * I = I + B * I by rw [Nat.add_mul, Nat.one_mul]] at key ⊢
  omega

end SC
