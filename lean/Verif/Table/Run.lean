import Verif.Spec.Map
import Verif.Table.Insert
/-!
# Histories of operations
-/
namespace SC
variable {S O : Type}

/-- One call by a user, including reading what the returned navigator or iterator refers to. -/
def Tab.step (g : Cfg S O) (t : Tab S O) : MapOp → Res (Tab S O × Ans)
  | .insert k v => do
    let (t, n) ← t.insert g k v
    let k' ← t.keyAt g n
    let x ← t.valueAt g n
    return (t, .pair k' x)
  | .get k => do
    let (t, n) ← t.subscript g k
    let x ← t.valueAt g n
    return (t, .num x)
  | .assign k v => do
    let (t, n) ← t.subscript g k
    let t ← t.writeValue g n v
    return (t, .none)
  | .find k => do
    let n ← t.find g k
    let e ← t.navEq g n Nav.end_
    if e then return (t, .absent)
    let k' ← t.keyAt g n
    let x ← t.valueAt g n
    return (t, .pair k' x)
  | .count k => do
    let c ← t.count g k
    return (t, .num c)
  | .erase k => do
    let (t, c) ← t.erase g k
    return (t, .num c)
  | .size => .ok (t, .num t.size)
  | .empty => .ok (t, .bool t.isEmpty)
  | .reserve n => do
    let t ← t.reserve g n
    return (t, .none)
  | .shrink => do
    let t ← t.shrink g
    return (t, .none)
  | .clear => .ok (t.clear g, .none)

/-- the state after a sequence of calls, and the answers -/
def Tab.run (g : Cfg S O) (t : Tab S O) : List MapOp → Res (Tab S O × List Ans)
  | [] => .ok (t, [])
  | op :: ops => do
    let (t, a) ← t.step g op
    let (t, as) ← Tab.run g t ops
    return (t, a :: as)

/-- the arguments that are allowed: keys are at most `max_key()`; see `normO` for values; `reserve` must leave at
least one bit for the quotients and is not called with 0 -/
def OpOK (P : Par S O) : MapOp → Prop
  | .insert k v => k < 2 ^ P.kw ∧ P.normO v = P.norm P.vw v
  | .get k => k < 2 ^ P.kw ∧ P.normO 0 = P.norm P.vw 0
  | .assign k v => k < 2 ^ P.kw ∧ P.normO v = P.norm P.vw v ∧ P.normO 0 = P.norm P.vw 0
  | .find k => k < 2 ^ P.kw
  | .count k => k < 2 ^ P.kw
  | .erase k => k < 2 ^ P.kw
  | .reserve n => ∃ r, reserveBits n = .ok r ∧ (r = 0 ∧ P.one = true ∨ P.lo ≤ r) ∧ r ≤ P.hi
  | _ => True

variable {g : Cfg S O} {P : Par S O}

/-- `reserve(1)` discards the buckets -/
theorem Inv.reserve_one (L : Laws g P) (hg : P.grow < 65) {t : Tab S O} {l : List (Nat × Nat)} (h : Inv g P t l)
    {n : Nat} (hr : reserveBits n = .ok 0) (h1 : P.one = true) :
    ∃ t', t.reserve g n = .ok t' ∧ Inv g P t' l ∧ t'.tb ≤ max P.ini P.grow := by
  have never := L.never h1
  have base : ∀ (t : Tab S O) m full n, reserveBits n = .ok 0 → t.kw = P.kw → t.vw = P.vw → 1 ≤ t.bpg → t.bpg ≤ 64 → t.elems = 0 →
      P.RepO t.ovf m [] full → ∃ t', t.reserveEmpty g n = .ok t' ∧ Inv g P t' [] ∧ t'.tb = 0 := by
    intro t m full n hr h1 h2 h3 h4 h5 h6
    obtain ⟨s, hs1, hs2⟩ := L.store.alloc (Tab.dim g { t with tb := 0 })
    obtain ⟨o', full', ho1, ho2⟩ := L.ovf.resize _ _ (2 ^ 0) _ h6 (by decide)
    refine ⟨{ t with tb := 0, store := s, ovf := o' }, ?_, .inl ⟨h1, h2, h3, h4, rfl, h5, rfl, never _, _, _, ho2⟩, rfl⟩
    simp only [Tab.reserveEmpty, hr, ddcheck_ok (never _), ok_bind, hs1, ho1, pure_eq_ok]
  have h0 := h
  rcases h with ⟨h1, h2, h3, h4, h5, h6, rfl, hst, m, full, h7⟩ | ⟨c, o, full, hl, hp⟩
  · obtain ⟨t', g1, g2, g3⟩ := base t m full n hr h1 h2 h3 h4 h6 h7
    refine ⟨t', ?_, g2, by omega⟩
    unfold Tab.reserve Tab.reserveWith
    rw [hr, ok_bind, if_pos h5]
    exact g1
  · have htb := hl.tb_pos L
    obtain ⟨full0, ho0⟩ := L.ovf.new P.kw P.vw
    obtain ⟨t1, g1, g2, g3⟩ := base { Tab.new g P.kw P.vw with bpg := g.rehashBpg } 0 full0 (2 ^ 0)
      (reserveBits_pow (by omega)) rfl rfl L.rbpg_pos L.rbpg_le rfl ho0
    obtain ⟨t2, k1, k2, k3, k4⟩ := insAll L (Tab.findOrInsert g depth) (ins_ok L depth) (ents (g.hash P.kw) t.tb c o) t1 []
      g2 (.inl hg) (fun e he => ⟨h0.key_lt L (hp.mem_iff.mpr he), h0.val_norm (hp.mem_iff.mpr he)⟩)
      (by simpa using ents_nodup (hl.map_ok L) hl.cok)
    refine ⟨t2, ?_, Inv.perm (by simpa using k2) hp, by omega⟩
    unfold Tab.reserve Tab.reserveWith
    rw [hr, ok_bind, if_neg (by omega), hl.tkw, hl.tvw]
    simp only [if_true, g1, ok_bind]
    have hr2 := hl.rehash L (Tab.findOrInsert g depth) t1
    rw [k1] at hr2
    obtain ⟨t3, e1, e2⟩ := bind_eq_ok hr2
    rw [e1, ok_bind, hl.checkTally L, ok_bind, e2, ok_bind, ddcheck_ok (by rw [k2.size, hl.elems]; rfl), ok_bind, pure_eq_ok]

/-- the list of pairs of a table and a finite map agree -/
structure Abs (l : List (Nat × Nat)) (m : FMap) : Prop where
  get : ∀ k v, m.get k = some v ↔ (k, v) ∈ l
  size : m.size = l.length

theorem Abs.none {l : List (Nat × Nat)} {m : FMap} (h : Abs l m) {k : Nat} :
    m.get k = none ↔ k ∉ l.map Prod.fst := by
  constructor
  · intro hn hk
    obtain ⟨⟨k', v⟩, he, rfl⟩ := List.mem_map.mp hk
    rw [(h.get k' v).mpr he] at hn
    cases hn
  · intro hk
    cases hg : m.get k with
    | none => rfl
    | some v => exact absurd (List.mem_map.mpr ⟨_, (h.get k v).mp hg, rfl⟩) hk

theorem Abs.perm {l l' : List (Nat × Nat)} {m : FMap} (h : Abs l m) (hp : l'.Perm l) : Abs l' m where
  get := fun k v => by rw [h.get, hp.mem_iff]
  size := by rw [h.size, hp.length_eq]

theorem Abs.empty : Abs [] FMap.empty where
  get := by simp [FMap.empty]
  size := rfl

theorem Abs.put_new {l : List (Nat × Nat)} {m : FMap} (h : Abs l m) {k v : Nat} (hk : k ∉ l.map Prod.fst) :
    Abs ((k, v) :: l) (m.put k v) where
  get := by
    intro x y
    simp only [FMap.put, List.mem_cons, Prod.mk.injEq]
    by_cases hx : x = k
    · subst hx
      simp only [if_true, Option.some.injEq, true_and]
      constructor
      · intro e; exact .inl e.symm
      · rintro (e | e)
        · exact e.symm
        · exact absurd (List.mem_map.mpr ⟨_, e, rfl⟩) hk
    · simp only [hx, if_false, false_and, false_or]
      exact h.get x y
  size := by simp [FMap.put, h.none.mpr hk, h.size]

theorem Abs.put_old {l R : List (Nat × Nat)} {m : FMap} (h : Abs l m) {k v x : Nat} (hp : l.Perm ((k, x) :: R))
    (hn : (l.map Prod.fst).Nodup) : Abs ((k, v) :: R) (m.put k v) where
  get := by
    have hk : k ∉ R.map Prod.fst := by
      have := (hp.map Prod.fst).nodup_iff.mp hn
      rw [List.map_cons, List.nodup_cons] at this
      exact this.1
    intro y z
    simp only [FMap.put, List.mem_cons, Prod.mk.injEq]
    by_cases hy : y = k
    · subst hy
      simp only [if_true, Option.some.injEq, true_and]
      constructor
      · intro e; exact .inl e.symm
      · rintro (e | e)
        · exact e.symm
        · exact absurd (List.mem_map.mpr ⟨_, e, rfl⟩) hk
    · simp only [hy, if_false, false_and, false_or]
      rw [h.get, hp.mem_iff]
      simp [hy]
  size := by
    have : m.get k = some x := (h.get k x).mpr (hp.mem_iff.mpr (by simp))
    simp [FMap.put, this, h.size, hp.length_eq]

theorem Abs.del {l R : List (Nat × Nat)} {m : FMap} (h : Abs l m) {k x : Nat} (hp : l.Perm ((k, x) :: R))
    (hn : (l.map Prod.fst).Nodup) : Abs R (m.del k) where
  get := by
    have hk : k ∉ R.map Prod.fst := by
      have := (hp.map Prod.fst).nodup_iff.mp hn
      rw [List.map_cons, List.nodup_cons] at this
      exact this.1
    intro y z
    simp only [FMap.del]
    by_cases hy : y = k
    · subst hy
      simp only [if_true, reduceCtorEq, false_iff]
      exact fun e => hk (List.mem_map.mpr ⟨_, e, rfl⟩)
    · simp only [hy, if_false]
      rw [h.get, hp.mem_iff]
      simp [hy]
  size := by
    have : m.get k = some x := (h.get k x).mpr (hp.mem_iff.mpr (by simp))
    simp [FMap.del, this, h.size, hp.length_eq]

theorem Abs.del_absent {l : List (Nat × Nat)} {m : FMap} (h : Abs l m) {k : Nat} (hk : k ∉ l.map Prod.fst) :
    m.del k = m := by
  have hk := h.none.mpr hk
  cases m with
  | mk get size =>
    simp only at hk
    simp only [FMap.del, hk, Option.isSome_none, Bool.false_eq_true, if_false, FMap.mk.injEq, and_true]
    funext x
    by_cases hx : x = k
    · subst hx; simp [hk]
    · simp [hx]

/-- what `find_or_insert` and `operator[]` give, in terms of the finite map -/
theorem Inv.insert_abs (L : Laws g P) (hg : P.grow < 65) {t : Tab S O} {l : List (Nat × Nat)} (h : Inv g P t l)
    {m : FMap} (ha : Abs l m) {k v : Nat} (hk : k < 2 ^ P.kw) (hv : P.normO v = P.norm P.vw v) :
    ∃ t' n x l' c o full, t.insert g k v = .ok (t', n) ∧ t'.keyAt g n = .ok k ∧ t'.valueAt g n = .ok x ∧
      Live g P t' c o full ∧ Loc g P t' c o n k x ∧ l'.Perm (ents (g.hash P.kw) t'.tb c o) ∧ Inv g P t' l' ∧
      ((m.get k = some x ∧ l' = l ∧ t' = t) ∨ (m.get k = none ∧ x = P.norm P.vw v ∧ l' = (k, x) :: l)) := by
  obtain ⟨t', n, h1, ⟨x, l', c, o, full, hc, hl, hp, hloc⟩, _, _⟩ := h.insert L hg hk hv
  obtain ⟨e1, e2, _⟩ := hl.loc_read L hloc
  refine ⟨t', n, x, l', c, o, full, h1, e1, e2, hl, hloc, hp, .inr ⟨c, o, full, hl, hp⟩, ?_⟩
  rcases hc with ⟨g1, g2, g3⟩ | ⟨g1, g2, g3⟩
  · exact .inl ⟨(ha.get k x).mpr (by rw [← g2]; exact hp.mem_iff.mpr (hl.loc_mem L hloc).1), g2, g3⟩
  · exact .inr ⟨ha.none.mpr g1, g2, g3⟩

/-- one operation -/
theorem Tab.step_ok (L : Laws g P) (hg : P.grow < 65) {t : Tab S O} {l : List (Nat × Nat)} (h : Inv g P t l) {m : FMap}
    (ha : Abs l m) (op : MapOp) (hop : OpOK P op) :
    ∃ t' l', t.step g op = .ok (t', (m.step (P.norm P.vw) op).2) ∧ Inv g P t' l' ∧
      Abs l' (m.step (P.norm P.vw) op).1 := by
  cases op with
  | insert k v =>
    obtain ⟨t', n, x, l', c, o, full, h1, h2, h3, h4, h5, h6, h7, h8⟩ := h.insert_abs L hg ha hop.1 hop.2
    refine ⟨t', l', ?_, h7, ?_⟩
    · simp only [Tab.step, h1, ok_bind, h2, h3, pure_eq_ok]
      rcases h8 with ⟨e1, _, _⟩ | ⟨e1, rfl, _⟩ <;> simp [FMap.step, e1]
    · rcases h8 with ⟨e1, rfl, _⟩ | ⟨e1, rfl, rfl⟩
      · simpa [FMap.step, e1] using ha
      · simpa [FMap.step, e1] using ha.put_new (ha.none.mp e1)
  | get k =>
    obtain ⟨t', n, x, l', c, o, full, h1, h2, h3, h4, h5, h6, h7, h8⟩ := h.insert_abs L hg ha hop.1 hop.2
    refine ⟨t', l', ?_, h7, ?_⟩
    · simp only [Tab.step, Tab.subscript, h1, ok_bind, h3, pure_eq_ok]
      rcases h8 with ⟨e1, _, _⟩ | ⟨e1, rfl, _⟩ <;> simp [FMap.step, e1]
    · rcases h8 with ⟨e1, rfl, _⟩ | ⟨e1, rfl, rfl⟩
      · simpa [FMap.step, e1] using ha
      · simpa [FMap.step, e1] using ha.put_new (ha.none.mp e1)
  | assign k v =>
    obtain ⟨t', n, x, l', c, o, full, h1, h2, h3, h4, h5, h6, h7, h8⟩ := h.insert_abs L hg ha hop.1 hop.2.2
    obtain ⟨t2, c2, o2, g1, g2, g3, g4, R, g5, g6⟩ := h4.writeValue L h5 (x := v) hop.2.1
    refine ⟨t2, (k, P.norm P.vw v) :: R, ?_, .inr ⟨c2, o2, full, g2, by rw [g3]; exact g6.symm⟩, ?_⟩
    · simp only [Tab.step, Tab.subscript, h1, ok_bind, g1, pure_eq_ok, FMap.step]
    · have hp := h6.trans g5
      rcases h8 with ⟨e1, rfl, _⟩ | ⟨e1, rfl, rfl⟩
      · exact ha.put_old hp (h7.nodup L)
      · have hp' := hp.cons_inv
        exact (ha.put_new (ha.none.mp e1)).perm (hp'.symm.cons _)
  | find k =>
    rcases h.find L (k := k) hop with ⟨n, v, h1, h2, h3, h4, h5⟩ | ⟨h1, h2, h3⟩
    · have e := (ha.get k v).mpr h2
      refine ⟨t, l, ?_, h, by simpa [FMap.step, e] using ha⟩
      simp [Tab.step, h1, h3, h4, h5, FMap.step, e]
    · have e := ha.none.mpr h3
      refine ⟨t, l, ?_, h, by simpa [FMap.step, e] using ha⟩
      simp [Tab.step, h1, h2, FMap.step, e]
  | count k =>
    refine ⟨t, l, ?_, h, ha⟩
    simp only [Tab.step, h.count L (k := k) hop, ok_bind, pure_eq_ok, FMap.step]
    by_cases hk : k ∈ l.map Prod.fst
    · have : (m.get k).isSome = true := by
        cases hgk : m.get k with
        | some x => rfl
        | none => exact absurd hk (ha.none.mp hgk)
      rw [if_pos hk, if_pos this]
    · rw [if_neg hk, ha.none.mpr hk]; rfl
  | erase k =>
    rcases h.erase L (k := k) hop with ⟨t', v, l', h1, h2, h3, h4⟩ | ⟨h1, h2⟩
    · have e := (ha.get k v).mpr (h2.mem_iff.mpr (by simp))
      refine ⟨t', l', ?_, h3, ha.del h2 (h.nodup L)⟩
      simp [Tab.step, h1, FMap.step, e]
    · have e := ha.none.mpr h2
      refine ⟨t, l, ?_, h, ?_⟩
      · simp [Tab.step, h1, FMap.step, e]
      · rw [show (m.step (P.norm P.vw) (.erase k)).1 = m.del k from rfl, ha.del_absent h2]; exact ha
  | size =>
    refine ⟨t, l, ?_, h, ha⟩
    simp only [Tab.step, Tab.size, FMap.step, h.size, ha.size]
  | empty =>
    refine ⟨t, l, ?_, h, ha⟩
    simp only [Tab.step, Tab.isEmpty, FMap.step, h.size, ha.size]
  | reserve n =>
    obtain ⟨r, hr, h0, hhi⟩ := hop
    rcases h0 with ⟨rfl, hone⟩ | hlo
    · obtain ⟨t', h1, h2, _⟩ := h.reserve_one L hg hr hone
      exact ⟨t', l, by simp [Tab.step, h1, FMap.step], h2, ha⟩
    · obtain ⟨t', h1, h2, _⟩ := h.reserve L hg hr hlo hhi
      exact ⟨t', l, by simp [Tab.step, h1, FMap.step], h2, ha⟩
  | shrink =>
    obtain ⟨t', h1, h2, _⟩ := h.shrink L
    exact ⟨t', l, by simp [Tab.step, h1, FMap.step], h2, ha⟩
  | clear => exact ⟨_, [], rfl, h.clear L, Abs.empty⟩

/-- a sequence of operations -/
theorem Tab.run_ok (L : Laws g P) (hg : P.grow < 65) : ∀ (ops : List MapOp) {t : Tab S O} {l : List (Nat × Nat)} {m : FMap},
    Inv g P t l → Abs l m → (∀ op ∈ ops, OpOK P op) →
    ∃ t' l', Tab.run g t ops = .ok (t', m.run (P.norm P.vw) ops) ∧ Inv g P t' l' ∧ Abs l' (m.after (P.norm P.vw) ops) := by
  intro ops
  induction ops with
  | nil => intro t l m h ha _; exact ⟨t, l, rfl, h, ha⟩
  | cons op ops ih =>
    intro t l m h ha hops
    obtain ⟨t1, l1, h1, h2, h3⟩ := Tab.step_ok L hg h ha op (hops op (by simp))
    obtain ⟨t2, l2, g1, g2, g3⟩ := ih h2 h3 (fun op' hop' => hops op' (by simp [hop']))
    refine ⟨t2, l2, ?_, g2, g3⟩
    simp only [Tab.run, h1, ok_bind, g1, pure_eq_ok, FMap.run]

/-- a history that starts with a new table -/
theorem Tab.run_new (L : Laws g P) (hg : P.grow < 65) (ops : List MapOp) (hops : ∀ op ∈ ops, OpOK P op) :
    ∃ t' l', Tab.run g (Tab.new g P.kw P.vw) ops = .ok (t', FMap.empty.run (P.norm P.vw) ops) ∧ Inv g P t' l' ∧
      Abs l' (FMap.empty.after (P.norm P.vw) ops) :=
  Tab.run_ok L hg ops (Inv.new L) Abs.empty hops

end SC
