import Verif.Table.Run
import Verif.Table.Iter
import Verif.Table.HashLaws
/-!
# What a user observes

The propositions in the first section describe single calls through the eyes of a user, who looks at a table with
`find`, `size()` and iterators only.
-/
namespace SC
variable {S O : Type}

/-! ## Observations -/

/-- `find(k)`: `none` if the result equals `end()`, otherwise key and value read through the iterator -/
def Tab.lookup (g : Cfg S O) (t : Tab S O) (k : Nat) : Res (Option (Nat × Nat)) := do
  let n ← t.find g k
  let e ← t.navEq g n Nav.end_
  if e then return none
  let k' ← t.keyAt g n
  let v ← t.valueAt g n
  return some (k', v)

/-- the pairs visited by `for(it = begin(); it != end(); ++it)` -/
def Tab.pairs (g : Cfg S O) (t : Tab S O) : Res (List (Nat × Nat)) := do
  let n ← t.beginNav g
  t.visit g (t.size + 1) n

/-- the pairs visited by `for(it = rbegin_nav(); it != rend_nav(); --it)` -/
def Tab.pairsBack (g : Cfg S O) (t : Tab S O) : Res (List (Nat × Nat)) := do
  let n ← t.rbeginNav g
  t.visitBack g (t.size + 1) n

/-- `for(it = rbegin_nav(); it != rend_nav(); --it) { visit; erase(it); }` -/
def Tab.drainAll (g : Cfg S O) (t : Tab S O) : Res (Tab S O × List (Nat × Nat)) := do
  let n ← t.rbeginNav g
  Tab.drain g (t.size + 1) t n

/-- `find_or_insert(k, v)`: a stored key is left alone, otherwise exactly this pair is added; the navigator refers to the
pair. -/
def InsertSpec (g : Cfg S O) (tr : Nat → Nat) (kw : Nat) (t : Tab S O) (k v : Nat) : Prop :=
  ∃ t' n, t.insert g k v = .ok (t', n) ∧
    ((∃ x, t.lookup g k = .ok (some (k, x)) ∧ t' = t ∧ t'.keyAt g n = .ok k ∧ t'.valueAt g n = .ok x) ∨
     (t.lookup g k = .ok none ∧ t'.size = t.size + 1 ∧ t'.keyAt g n = .ok k ∧ t'.valueAt g n = .ok (tr v) ∧
      t'.lookup g k = .ok (some (k, tr v)) ∧ ∀ k' < 2 ^ kw, k' ≠ k → t'.lookup g k' = t.lookup g k'))

/-- `m[k] = v` -/
def AssignSpec (g : Cfg S O) (tr : Nat → Nat) (kw : Nat) (t : Tab S O) (k v : Nat) : Prop :=
  ∃ t' n t'', t.subscript g k = .ok (t', n) ∧ t'.writeValue g n v = .ok t'' ∧
    t''.lookup g k = .ok (some (k, tr v)) ∧ (∀ k' < 2 ^ kw, k' ≠ k → t''.lookup g k' = t.lookup g k') ∧
    (t.lookup g k = .ok none → t''.size = t.size + 1) ∧ (t.lookup g k ≠ .ok none → t''.size = t.size)

/-- `erase(k)` -/
def EraseSpec (g : Cfg S O) (kw : Nat) (t : Tab S O) (k : Nat) : Prop :=
  ∃ t' r, t.erase g k = .ok (t', r) ∧ t'.lookup g k = .ok none ∧
    (∀ k' < 2 ^ kw, k' ≠ k → t'.lookup g k' = t.lookup g k') ∧
    (t.lookup g k = .ok none → r = 0 ∧ t' = t) ∧ (t.lookup g k ≠ .ok none → r = 1 ∧ t'.size + 1 = t.size)

/-- `size()` and `empty()` agree with `find` and with iteration -/
def SizeSpec (g : Cfg S O) (kw : Nat) (t : Tab S O) : Prop :=
  ((List.range (2 ^ kw)).filter (fun k => t.lookup g k ≠ .ok none)).length = t.size ∧
  (∃ l, t.pairs g = .ok l ∧ l.length = t.size) ∧ (t.isEmpty = true ↔ t.size = 0)

/-- two tables show the same contents -/
def SameContents (g : Cfg S O) (kw : Nat) (t t' : Tab S O) : Prop :=
  t'.kw = t.kw ∧ t'.vw = t.vw ∧ t'.size = t.size ∧ ∀ k < 2 ^ kw, t'.lookup g k = t.lookup g k

/-- `clear()` followed by anything else -/
def ClearSpec (g : Cfg S O) (tr : Nat → Nat) (kw : Nat) (t : Tab S O) (ops : List MapOp) : Prop :=
  (t.clear g).size = 0 ∧ (t.clear g).bucketCount = 0 ∧ (∀ k < 2 ^ kw, (t.clear g).lookup g k = .ok none) ∧
  ∃ t', Tab.run g (t.clear g) ops = .ok (t', FMap.empty.run tr ops)

/-- the forward loop visits every stored pair exactly once -/
def ForwardSpec (g : Cfg S O) (kw : Nat) (t : Tab S O) : Prop :=
  ∃ l, t.pairs g = .ok l ∧ (l.map Prod.fst).Nodup ∧ (∀ e ∈ l, e.1 < 2 ^ kw) ∧
    ∀ k < 2 ^ kw, ∀ v, (k, v) ∈ l ↔ t.lookup g k = .ok (some (k, v))

/-- a navigator is different from `end()` exactly if it is what `find` gives for some stored key -/
def NavSpec (g : Cfg S O) (kw : Nat) (t : Tab S O) : Prop :=
  ∀ n, (t.navEq g n Nav.end_ = .ok false ∧ ∃ k v, k < 2 ^ kw ∧ t.find g k = .ok n ∧ t.lookup g k = .ok (some (k, v)) ∧
      t.keyAt g n = .ok k ∧ t.valueAt g n = .ok v) ∨
    (t.navEq g n Nav.end_ = .ok true ∧ ∀ k < 2 ^ kw, t.find g k = .ok n → t.lookup g k = .ok none)

/-! ## Proofs for lawful tables -/

variable {g : Cfg S O} {P : Par S O}

/-- the table `t` represents the finite map `m` -/
def Sem (g : Cfg S O) (P : Par S O) (t : Tab S O) (m : FMap) : Prop := ∃ l, Inv g P t l ∧ Abs l m

theorem Sem.lookup (L : Laws g P) {t : Tab S O} {m : FMap} (h : Sem g P t m) {k : Nat} (hk : k < 2 ^ P.kw) :
    t.lookup g k = .ok ((m.get k).map (fun v => (k, v))) := by
  obtain ⟨l, h, ha⟩ := h
  rcases h.find L hk with ⟨n, v, h1, h2, h3, h4, h5⟩ | ⟨h1, h2, h3⟩
  · simp only [Tab.lookup, h1, h3, ok_bind, h4, h5, (ha.get k v).mpr h2, Option.map_some]
    rfl
  · simp only [Tab.lookup, h1, h2, ok_bind, if_true, ha.none.mpr h3, Option.map_none]
    rfl

theorem Sem.size {t : Tab S O} {m : FMap} (h : Sem g P t m) : t.size = m.size := by
  obtain ⟨l, h, ha⟩ := h
  rw [ha.size]; exact h.size

theorem Sem.widths {t : Tab S O} {m : FMap} (h : Sem g P t m) : t.kw = P.kw ∧ t.vw = P.vw := by
  obtain ⟨l, h, ha⟩ := h
  rcases h with h | ⟨c, o, full, hl, _⟩
  · exact ⟨h.1, h.2.1⟩
  · exact ⟨hl.tkw, hl.tvw⟩

theorem Sem.step (L : Laws g P) (hg : P.grow < 65) {t : Tab S O} {m : FMap} (h : Sem g P t m) (op : MapOp) (hop : OpOK P op) :
    ∃ t', t.step g op = .ok (t', (m.step (P.norm P.vw) op).2) ∧ Sem g P t' (m.step (P.norm P.vw) op).1 := by
  obtain ⟨l, h, ha⟩ := h
  obtain ⟨t', l', h1, h2, h3⟩ := Tab.step_ok L hg h ha op hop
  exact ⟨t', h1, l', h2, h3⟩

theorem Sem.lookup_none (L : Laws g P) {t : Tab S O} {m : FMap} (h : Sem g P t m) {k : Nat} (hk : k < 2 ^ P.kw) :
    t.lookup g k = .ok none ↔ m.get k = none := by
  rw [h.lookup L hk]
  cases m.get k <;> simp

theorem fact_insert (L : Laws g P) (hg : P.grow < 65) {t : Tab S O} {m : FMap} (h : Sem g P t m) {k v : Nat}
    (hk : k < 2 ^ P.kw) (hv : P.normO v = P.norm P.vw v) : InsertSpec g (P.norm P.vw) P.kw t k v := by
  have h0 := h
  obtain ⟨l, h, ha⟩ := h
  obtain ⟨t', n, h1, h2, h3, h4⟩ := h.insert L hg hk hv
  refine ⟨t', n, h1, ?_⟩
  obtain ⟨x, l', c, o, full, hc, hl, hp, hloc⟩ := h2
  obtain ⟨r1, r2, _⟩ := hl.loc_read L hloc
  have hm := (hl.loc_mem L hloc).1
  rcases hc with ⟨e1, rfl, rfl⟩ | ⟨e1, rfl, rfl⟩
  · left
    refine ⟨x, ?_, rfl, r1, r2⟩
    rw [h0.lookup L hk, (ha.get k x).mpr (hp.mem_iff.mpr hm)]; rfl
  · right
    have hnone := ha.none.mpr e1
    have hsem : Sem g P t' (m.put k (P.norm P.vw v)) := ⟨_, .inr ⟨c, o, full, hl, hp⟩, ha.put_new e1⟩
    refine ⟨(h0.lookup_none L hk).mpr hnone, ?_, r1, r2, ?_, ?_⟩
    · rw [hsem.size, h0.size]; simp [FMap.put, hnone]
    · rw [hsem.lookup L hk]; simp [FMap.put]
    · intro k' hk' hne
      rw [hsem.lookup L hk', h0.lookup L hk']; simp [FMap.put, hne]

theorem fact_insert_buckets (L : Laws g P) (hg : P.grow < 65) {t : Tab S O} {m : FMap} (h : Sem g P t m) {k v : Nat}
    (hk : k < 2 ^ P.kw) (hv : P.normO v = P.norm P.vw v) :
    ∃ t' n, t.insert g k v = .ok (t', n) ∧ t.tb ≤ t'.tb ∧ t'.tb ≤ max (max t.tb P.ini) P.grow ∧ P.lo ≤ t'.tb ∧
      t'.tb ≤ P.hi := by
  obtain ⟨l, h, ha⟩ := h
  obtain ⟨t', n, h1, ⟨x, l', c, o, full, hc, hl, _⟩, h3, h4⟩ := h.insert L hg hk hv
  exact ⟨t', n, h1, h3, h4, hl.lo, hl.hi⟩

theorem fact_assign (L : Laws g P) (hg : P.grow < 65) {t : Tab S O} {m : FMap} (h : Sem g P t m) {k v : Nat}
    (hk : k < 2 ^ P.kw) (hv : P.normO v = P.norm P.vw v) (h0 : P.normO 0 = P.norm P.vw 0) :
    AssignSpec g (P.norm P.vw) P.kw t k v := by
  obtain ⟨t'', h1, h2⟩ := h.step L hg (.assign k v) ⟨hk, hv, h0⟩
  simp only [Tab.step] at h1
  cases hs : t.subscript g k with
  | error e => rw [hs] at h1; simp at h1
  | ok r =>
    obtain ⟨t', n⟩ := r
    rw [hs] at h1
    simp only [ok_bind] at h1
    cases hw : t'.writeValue g n v with
    | error e => rw [hw] at h1; simp at h1
    | ok u =>
      rw [hw] at h1
      simp only [ok_bind, pure_eq_ok, Except.ok.injEq, Prod.mk.injEq] at h1
      obtain ⟨rfl, _⟩ := h1
      simp only [FMap.step] at h2
      refine ⟨t', n, u, hs, hw, ?_, ?_, ?_, ?_⟩
      · rw [h2.lookup L hk]; simp [FMap.put]
      · intro k' hk' hne
        rw [h2.lookup L hk', h.lookup L hk']; simp [FMap.put, hne]
      · intro hn
        rw [h2.size, h.size]; simp [FMap.put, (h.lookup_none L hk).mp hn]
      · intro hn
        have : (m.get k).isSome = true := by
          cases hmk : m.get k with
          | none => exact absurd ((h.lookup_none L hk).mpr hmk) hn
          | some x => rfl
        rw [h2.size, h.size]; simp [FMap.put, this]

theorem fact_erase (L : Laws g P) {t : Tab S O} {m : FMap} (h : Sem g P t m) {k : Nat}
    (hk : k < 2 ^ P.kw) : EraseSpec g P.kw t k := by
  have h0 := h
  obtain ⟨l, h, ha⟩ := h
  rcases h.erase L hk with ⟨t', v, l', h1, h2, h3, h4⟩ | ⟨h1, h2⟩
  · have hsome : m.get k = some v := (ha.get k v).mpr (h2.mem_iff.mpr (by simp))
    have hnd := h.nodup L
    have ha' : Abs l' (m.del k) := by
      have hnd' := (h2.map Prod.fst).nodup_iff.mp hnd
      rw [List.map_cons, List.nodup_cons] at hnd'
      constructor
      · intro x y
        simp only [FMap.del]
        by_cases hx : x = k
        · subst hx
          simp only [if_true, reduceCtorEq, false_iff]
          intro hmem
          exact hnd'.1 (List.mem_map.mpr ⟨_, hmem, rfl⟩)
        · rw [if_neg hx, ha.get, h2.mem_iff]; simp [hx]
      · have := h2.length_eq
        simp only [FMap.del, hsome, Option.isSome_some, if_true, ha.size, this, List.length_cons]; omega
    have hs' : Sem g P t' (m.del k) := ⟨l', h3, ha'⟩
    refine ⟨t', 1, h1, ?_, ?_, ?_, ?_⟩
    · rw [hs'.lookup L hk]; simp [FMap.del]
    · intro k' hk' hne
      rw [hs'.lookup L hk', h0.lookup L hk']; simp [FMap.del, hne]
    · intro hn; rw [(h0.lookup_none L hk)] at hn; rw [hn] at hsome; cases hsome
    · intro _
      refine ⟨rfl, ?_⟩
      rw [hs'.size, h0.size, ha'.size, ha.size, h2.length_eq]; simp
  · have hn := (h0.lookup_none L hk).mpr (ha.none.mpr h2)
    exact ⟨t, 0, h1, hn, fun _ _ _ => rfl, fun _ => ⟨rfl, rfl⟩, fun hc => absurd hn hc⟩

theorem fact_same {P' : Par S O} (L : Laws g P) (L' : Laws g P') {t t' : Tab S O} {m : FMap} (h : Sem g P t m)
    (h' : Sem g P' t' m) (hkw : P'.kw = P.kw) (hvw : P'.vw = P.vw) : SameContents g P.kw t t' := by
  refine ⟨?_, ?_, ?_, ?_⟩
  · rw [h'.widths.1, h.widths.1, hkw]
  · rw [h'.widths.2, h.widths.2, hvw]
  · rw [h'.size, h.size]
  · intro k hk; rw [h'.lookup L' (by rw [hkw]; exact hk), h.lookup L hk]

theorem fact_reserve (L : Laws g P) (hg : P.grow < 65) {t : Tab S O} {m : FMap} (h : Sem g P t m) {n : Nat}
    (hn : OpOK P (.reserve n)) : ∃ t', t.reserve g n = .ok t' ∧ Sem g P t' m := by
  obtain ⟨t', h1, h2⟩ := h.step L hg (.reserve n) hn
  simp only [Tab.step] at h1
  cases hr : t.reserve g n with
  | error e => rw [hr] at h1; simp at h1
  | ok u =>
    rw [hr] at h1
    simp only [ok_bind, pure_eq_ok, Except.ok.injEq, Prod.mk.injEq] at h1
    obtain ⟨rfl, _⟩ := h1
    exact ⟨u, rfl, h2⟩

theorem fact_shrink (L : Laws g P) {t : Tab S O} {m : FMap} (h : Sem g P t m) :
    ∃ t', t.shrink g = .ok t' ∧ Sem g P t' m := by
  obtain ⟨l, h, ha⟩ := h
  obtain ⟨t', h1, h2, _⟩ := h.shrink L
  exact ⟨t', h1, l, h2, ha⟩

theorem fact_clear (L : Laws g P) (hg : P.grow < 65) {t : Tab S O} {m : FMap} (h : Sem g P t m) (ops : List MapOp)
    (hops : ∀ op ∈ ops, OpOK P op) : ClearSpec g (P.norm P.vw) P.kw t ops := by
  obtain ⟨l, h, ha⟩ := h
  have hs : Sem g P (t.clear g) FMap.empty := ⟨[], h.clear L, Abs.empty⟩
  refine ⟨rfl, rfl, ?_, ?_⟩
  · intro k hk; rw [hs.lookup L hk]; rfl
  · obtain ⟨t', _, h1, _⟩ := Tab.run_ok L hg ops (h.clear L) Abs.empty hops
    exact ⟨t', h1⟩

/-- the overflow table is always empty (there is none) -/
def NoOverflow (P : Par S O) : Prop := ∀ o n l full, P.RepO o n l full → l = []

/-- what the forward loop collects -/
theorem Sem.pairs (L : Laws g P) (hno : NoOverflow P) {t : Tab S O} {m : FMap} (h : Sem g P t m) :
    ∃ l, t.pairs g = .ok l ∧ Inv g P t l ∧ Abs l m := by
  obtain ⟨l, h, ha⟩ := h
  rcases h with ⟨h1, h2, h3, h4, h5, h6, rfl, hst, n, full, h7⟩ | ⟨c, o, full, hl, hp⟩
  · refine ⟨[], ?_, .inl ⟨h1, h2, h3, h4, h5, h6, rfl, hst, n, full, h7⟩, ha⟩
    have hs : g.ov.size t.ovf = 0 := L.ovf.size _ _ _ _ h7
    have hbc : t.bucketCount = 0 := by simp [Tab.bucketCount, h5]
    simp only [Tab.pairs, Tab.beginNav, hbc, Tab.scanUp, ok_bind, Nat.lt_irrefl, if_false, hs, pure_eq_ok, Tab.visit,
      navEq_true (show t.tb < 64 by omega) (invalid_end (show t.tb < 64 by omega)), if_true]
  · have : o = [] := hno _ _ _ _ hl.orep
    subst this
    obtain ⟨n, h1, h2⟩ := hl.visit_begin L (show t.elems < t.size + 1 by simp [Tab.size])
    have hp' : (stored (g.hash P.kw) t.tb c).Perm l := by
      have : ents (g.hash P.kw) t.tb c [] = stored (g.hash P.kw) t.tb c := by simp [ents]
      rw [this] at hp; exact hp.symm
    refine ⟨stored (g.hash P.kw) t.tb c, by simp only [Tab.pairs, h1, ok_bind, h2], ?_, ha.perm hp'⟩
    exact Inv.perm (.inr ⟨c, [], full, hl, hp⟩) hp'

theorem fact_forward (L : Laws g P) (hno : NoOverflow P) {t : Tab S O} {m : FMap} (h : Sem g P t m) :
    ForwardSpec g P.kw t := by
  obtain ⟨l, h1, h2, h3⟩ := h.pairs L hno
  refine ⟨l, h1, h2.nodup L, fun e he => h2.key_lt L he, ?_⟩
  intro k hk v
  rw [h.lookup L hk, ← h3.get k v]
  cases m.get k <;> simp

theorem fact_nav (L : Laws g P) (hno : NoOverflow P) {t : Tab S O} {m : FMap} (h : Sem g P t m) : NavSpec g P.kw t := by
  intro n
  have hinv : ∀ b, t.navEq g n Nav.end_ = .ok b → b = true → ∀ k < 2 ^ P.kw, t.find g k = .ok n →
      t.lookup g k = .ok none := by
    rintro b hb rfl k hk hf
    simp only [Tab.lookup, hf, hb, ok_bind, if_true]; rfl
  have h0 := h
  obtain ⟨l, h, ha⟩ := h
  rcases h with ⟨h1, h2, h3, h4, h5, h6, rfl, hst, n', full, h7⟩ | ⟨c, o, full, hl, hp⟩
  · right
    have : t.navEq g n Nav.end_ = .ok true := navEq_true (by omega) (invalid_beyond
      (by have := L.ovf.size _ _ _ _ h7; simpa using this) (by simp [Tab.bucketCount, h5]))
    exact ⟨this, hinv _ this rfl⟩
  · obtain rfl : o = [] := hno _ _ _ _ hl.orep
    have htb := hl.tb_lt L
    have ho : g.ov.size t.ovf = 0 := by rw [hl.osize L]; rfl
    by_cases hb : n.bucket < 2 ^ t.tb
    · have hsz := L.store.size _ _ _ _ (hl.good L) hl.rep hb
      have hi : t.invalid g n = .ok (decide ((c n.bucket).length ≤ n.pos)) := by
        simp only [Tab.invalid, ho, Nat.lt_irrefl, false_and, if_false, hl.bc L, if_neg (show ¬ 2 ^ t.tb ≤ n.bucket by omega),
          hsz, ok_bind, pure_eq_ok]
      by_cases hpos : n.pos < (c n.bucket).length
      · left
        rw [decide_eq_false (by omega)] at hi
        refine ⟨navEq_false htb hi, ?_⟩
        obtain ⟨k, hk, hm⟩ := hl.cok.src _ hb _ (List.getElem_mem hpos)
        have hloc : Loc g P t c [] n k ((c n.bucket)[n.pos]).2 :=
          .inl ⟨_, n.bucket, n.pos, hpos, rfl, hb, hm, rfl, hk⟩
        obtain ⟨r1, r2, _⟩ := hl.loc_read L hloc
        have hmem := (hl.loc_mem L hloc).1
        refine ⟨k, _, hk, ?_, ?_, r1, r2⟩
        · obtain ⟨n', hn', hcase⟩ := hl.find L hk
          rcases hcase with ⟨v', ⟨q, b, i, hi', rfl, hb', hm', he', _⟩ | ⟨p, _, hp'⟩⟩ | ⟨_, hnm⟩
          · rw [hm] at hm'
            have hqb := Except.ok.inj hm'
            have e1 : b = n.bucket := (congrArg Prod.snd hqb).symm
            have e2 : q = ((c n.bucket)[n.pos]).1 := (congrArg Prod.fst hqb).symm
            subst e1
            have : i = n.pos := by
              have hnd := hl.cok.nodup _ hb'
              have := (List.getElem_inj (i := i) (j := n.pos) (h₀ := by simpa using hi') (h₁ := by simpa using hpos) hnd).mp (by
                rw [List.getElem_map, List.getElem_map, he', e2])
              exact this
            subst this
            exact hn'
          · simp at hp'
          · exact absurd (List.mem_map.mpr ⟨_, hmem, rfl⟩) hnm
        · rw [h0.lookup L hk, (ha.get k _).mpr (hp.mem_iff.mpr hmem)]; rfl
      · right
        rw [decide_eq_true (by omega)] at hi
        have := navEq_true htb hi
        exact ⟨this, hinv _ this rfl⟩
    · right
      have : t.navEq g n Nav.end_ = .ok true := navEq_true htb (invalid_beyond ho (by rw [hl.bc L]; omega))
      exact ⟨this, hinv _ this rfl⟩

theorem fact_size (L : Laws g P) (hno : NoOverflow P) {t : Tab S O} {m : FMap} (h : Sem g P t m) : SizeSpec g P.kw t := by
  obtain ⟨l, h1, h2, h3⟩ := h.pairs L hno
  refine ⟨?_, ⟨l, h1, by rw [h.size, h3.size]⟩, by simp [Tab.isEmpty, Tab.size]⟩
  rw [h.size, h3.size, ← List.length_map (f := Prod.fst) (as := l)]
  apply Nat.le_antisymm
  · apply List.Nodup.length_le_of_subset (List.nodup_range.filter _)
    intro k hk
    simp only [List.mem_filter, List.mem_range, decide_eq_true_eq, ne_eq] at hk
    apply Classical.byContradiction
    intro hc
    exact hk.2 ((h.lookup_none L hk.1).mpr (h3.none.mpr hc))
  · apply List.Nodup.length_le_of_subset (h2.nodup L)
    intro k hk
    have hlt : k < 2 ^ P.kw := by
      obtain ⟨e, he, rfl⟩ := List.mem_map.mp hk
      exact h2.key_lt L he
    simp only [List.mem_filter, List.mem_range, decide_eq_true_eq, ne_eq]
    refine ⟨hlt, ?_⟩
    rw [h.lookup_none L hlt, h3.none]
    exact fun hc => hc hk

/-- an emptied table with buckets -/
theorem Sem.live (h0 : ∃ m, Sem g P t m) (ht : t.tb ≠ 0) : ∃ c o full, Live g P t c o full := by
  obtain ⟨m, l, h, _⟩ := h0
  rcases h with ⟨_, _, _, _, h5, _⟩ | ⟨c, o, full, hl, _⟩
  · exact absurd h5 ht
  · exact ⟨c, o, full, hl⟩

theorem fact_backward (L : Laws g P) (hno : NoOverflow P) {t : Tab S O} {m : FMap} (h : Sem g P t m) (hne : t.size ≠ 0) :
    ∃ l, t.pairs g = .ok l ∧ t.pairsBack g = .ok l.reverse := by
  obtain ⟨l, h, ha⟩ := h
  rcases h with ⟨h1, h2, h3, h4, h5, h6, rfl, hst, n, full, h7⟩ | ⟨c, o, full, hl, hp⟩
  · exact absurd h6 hne
  · have : o = [] := hno _ _ _ _ hl.orep
    subst this
    obtain ⟨n, h1, h2⟩ := hl.visit_begin L (show t.elems < t.size + 1 by simp [Tab.size])
    obtain ⟨n', h1', h2'⟩ := hl.visit_rbegin L hne (show t.elems < t.size + 1 by simp [Tab.size])
    exact ⟨stored (g.hash P.kw) t.tb c, by simp only [Tab.pairs, h1, ok_bind, h2],
      by simp only [Tab.pairsBack, h1', ok_bind, h2']⟩

theorem fact_drain (L : Laws g P) (hno : NoOverflow P) {t : Tab S O} {m : FMap} (h : Sem g P t m) (hne : t.size ≠ 0) :
    ∃ l t', t.pairs g = .ok l ∧ t.drainAll g = .ok (t', l.reverse) ∧ Sem g P t' FMap.empty := by
  obtain ⟨l, h, ha⟩ := h
  rcases h with ⟨h1, h2, h3, h4, h5, h6, rfl, hst, n, full, h7⟩ | ⟨c, o, full, hl, hp⟩
  · exact absurd h6 hne
  · have : o = [] := hno _ _ _ _ hl.orep
    subst this
    obtain ⟨n, h1, h2⟩ := hl.visit_begin L (show t.elems < t.size + 1 by simp [Tab.size])
    obtain ⟨n', t', h1', h2', h3'⟩ := hl.drain_rbegin L hne (show t.elems < t.size + 1 by simp [Tab.size])
    exact ⟨stored (g.hash P.kw) t.tb c, t', by simp only [Tab.pairs, h1, ok_bind, h2],
      by simp only [Tab.drainAll, h1', ok_bind, h2'], [], h3', Abs.empty⟩

/-- `rbegin_nav()` on a table that has buckets but no elements reads out of bounds -/
theorem rbegin_empty (L : Laws g P) (hno : NoOverflow P) {t : Tab S O} {m : FMap} (h : Sem g P t m) (ht : t.tb ≠ 0)
    (he : t.size = 0) : t.rbeginNav g = .error .oob := by
  obtain ⟨c, o, full, hl⟩ := Sem.live ⟨m, h⟩ ht
  have ho0 : o = [] := hno _ _ _ _ hl.orep
  subst ho0
  have ho : g.ov.size t.ovf = 0 := by rw [hl.osize L]; rfl
  have hpos := Nat.two_pow_pos t.tb
  have hz : stored (g.hash P.kw) t.tb c = [] := by
    have h1 : t.elems = 0 := he
    rw [hl.elems] at h1
    have := List.eq_nil_of_length_eq_zero h1
    simpa [ents] using this
  simp only [Tab.rbeginNav, ho, Nat.lt_irrefl, if_false, hl.bc L, if_neg (show ¬ 2 ^ t.tb = 0 by omega)]
  apply rscan_empty L hl _ (Nat.le_refl _)
  intro x hx
  unfold stored at hz
  rw [List.flatMap_eq_nil_iff] at hz
  have := hz x (by simpa using hx)
  simpa [bEnts] using this

/-- `reserve` on a table without buckets -/
theorem fact_rounding {t : Tab S O} (ht : t.tb = 0) (hst : g.stale t.store = false) {n : Nat} (h1 : 2 ≤ n) (h2 : n ≤ 2 ^ 63)
    (halloc : ∀ d, ∃ s, g.ops.alloc d = .ok s) (hov : ∀ m, ∃ o, g.ov.resizeBuckets t.ovf m = .ok o) :
    ∃ t' r, t.reserve g n = .ok t' ∧ t'.bucketCount = 2 ^ r ∧ n ≤ 2 ^ r ∧ ∀ j, n ≤ 2 ^ j → 2 ^ r ≤ 2 ^ j := by
  have hr := reserveBits_ceilLog (show 1 ≤ n by omega) h2
  obtain ⟨s, hs⟩ := halloc (Tab.dim g { t with tb := ceilLog n })
  obtain ⟨o, ho⟩ := hov (2 ^ ceilLog n)
  have hpos : ceilLog n ≠ 0 := by
    intro e
    have := (ceilLog_le_iff (r := 0) (show 1 ≤ n by omega)).mp (by omega)
    simp at this; omega
  refine ⟨{ t with tb := ceilLog n, store := s, ovf := o }, ceilLog n, ?_, ?_, (le_pow_ceilLog (by omega)).1, ?_⟩
  · simp only [Tab.reserve, Tab.reserveWith, hr, ok_bind, if_pos ht, Tab.reserveEmpty, ddcheck_ok hst, hs, ho, pure_eq_ok]
  · simp [Tab.bucketCount, hpos]
  · intro j hj
    exact Nat.pow_le_pow_right (by omega) ((ceilLog_le_iff (by omega)).mpr hj)

end SC
