import Verif.Compact.Wrapper
import Verif.Props.Stable
/-!
# What `operator[]` of `compact_chaining_map` returns can be used like a reference: C102
-/
namespace SC
variable {c : VarCfg} {hk : HashKind} {kw vw : Nat}

/-- The object `w` stands for the value of key `k` in the table `t`. -/
structure RefSpec (c : VarCfg) (hk : HashKind) (kw vw : Nat) (t : Tab CmpStore Unit) (w : Wrapper) (k : Nat) : Prop where
  /-- reading it gives what `find(k)` finds -/
  read : ∃ x < 2 ^ vw, w.read c hk t = .ok x ∧ t.lookup (cmpMap c hk) k = .ok (some (k, x)) ∧ ∀ y < 2 ^ 64, w.eq c hk t y = .ok (x == y)
  /-- assigning to it changes the value of `k` and nothing else, exactly as the statement `map[k] = v` does -/
  assign : ∀ v, ∃ t', w.assign c hk t v = .ok t' ∧ (∃ a, t.step (cmpMap c hk) (.assign k v) = .ok (t', a)) ∧ w.read c hk t' = .ok (v % 2 ^ vw) ∧
    t'.lookup (cmpMap c hk) k = .ok (some (k, v % 2 ^ vw)) ∧
    (∀ k' < 2 ^ kw, k' ≠ k → t'.lookup (cmpMap c hk) k' = t.lookup (cmpMap c hk) k') ∧ t'.size = t.size ∧ t'.bucketCount = t.bucketCount

theorem wrapper_nav (h : CmpOK c hk kw vw) {t : Tab CmpStore Unit} {cont : Cont} {full : Nat → Bool}
    (hl : Live (cmpMap c hk) (cmpPar c hk kw vw) t cont [] full) {n : Nav} {k : Nat} (hat : At ((cmpMap c hk).hash kw) t.tb cont k n) :
    Wrapper.ofNav n = ⟨n.bucket, n.pos⟩ ∧ ((Wrapper.ofNav n).read c hk t = t.valueAt (cmpMap c hk) n) ∧
    ∀ v, (Wrapper.ofNav n).assign c hk t v = t.writeValue (cmpMap c hk) n v := by
  have L := h.covered.laws
  obtain ⟨q, hi, hb, hm, he⟩ := hat
  have hle := (CmpRep.bkt (show CmpRep c t.store (t.dim (cmpMap c hk)) cont from hl.rep) n.bucket hb).le
  have hp : n.pos % 256 = n.pos := Nat.mod_eq_of_lt (by omega)
  have hne : ¬ n.bucket = t.bucketCount := by rw [hl.bc L]; omega
  have hw : Wrapper.ofNav n = ⟨n.bucket, n.pos⟩ := by unfold Wrapper.ofNav; rw [hp]
  refine ⟨hw, ?_, fun v => ?_⟩
  · rw [hw]
    unfold Wrapper.read Tab.valueAt Tab.checkValid
    rw [if_neg (by exact Bool.false_ne_true), if_neg (fun x => hne x.2), if_neg hne]
    rfl
  · rw [hw]
    unfold Wrapper.assign Tab.writeValue
    rw [if_neg hne]
    rfl

theorem ref_of_placed (h : CmpOK c hk kw vw) {t : Tab CmpStore Unit} {m : FMap} (hs : Sem (cmpMap c hk) (cmpPar c hk kw vw) t m)
    {k : Nat} (hkk : k < 2 ^ kw) {n : Nav} (hp : Placed (cmpMap c hk) t k n) : RefSpec c hk kw vw t (Wrapper.ofNav n) k := by
  have hc := h.covered
  have L := hc.laws
  have hv64 := h.vw_le
  have hs0 := hs
  obtain ⟨l, hi, ha⟩ := hs
  obtain ⟨cont, full, hl, hperm⟩ := hp.live hc.noOverflow hi
  have hat := (hl.placed_at L hkk).mp hp
  obtain ⟨w1, w2, w3⟩ := wrapper_nav h hl hat
  obtain ⟨_, x, r2, r3⟩ := (fact_stableSpec (valid := OpOK (cmpPar c hk kw vw)) L hc.noOverflow hc.grow65 (fun _ => id) hs0).reads k n hkk hp
  have hx : x < 2 ^ vw := by
    obtain ⟨q, j1, j2, j3, j4⟩ := hat
    have hloc : Loc (cmpMap c hk) (cmpPar c hk kw vw) t cont [] n k ((cont n.bucket)[n.pos]).2 :=
      .inl ⟨q, n.bucket, n.pos, j1, rfl, j2, j3, by rw [← j4], hkk⟩
    have e := (hl.loc_read L hloc).2.1
    rw [r3] at e
    have e := Except.ok.inj e
    have := hl.vals n.bucket j2 _ (List.getElem_mem j1)
    rw [← e] at this
    rw [← show x % 2 ^ vw = x from this]
    exact Nat.mod_lt _ (Nat.two_pow_pos _)
  refine ⟨⟨x, hx, w2.trans r3, r2, fun y hy => ?_⟩, fun v => ?_⟩
  · unfold Wrapper.eq
    rw [w2, r3, Nat.mod_eq_of_lt hy]; rfl
  · -- `operator[]` finds the key where it is
    obtain ⟨t', n', x', l', c', o', full', i1, _, _, i4, i5, _, _, i8⟩ := hi.insert_abs L hc.grow65 ha (v := 0) hkk (hc.normA 0)
    have hget : m.get k = some x := by
      have := hs0.lookup L (k := k) hkk
      rw [r2] at this
      cases hg : m.get k with
      | none => rw [hg] at this; cases this
      | some y => rw [hg] at this; cases this; rfl
    have het : t' = t := by
      rcases i8 with ⟨_, _, h3⟩ | ⟨h1, _⟩
      · exact h3
      · rw [hget] at h1; cases h1
    subst het
    obtain rfl : o' = [] := hc.noOverflow _ _ _ _ i4.orep
    have hn : n' = n := by
      rcases i5 with ⟨q, b, i, g1, rfl, g3, g4, g5, _⟩ | ⟨p, _, hp'⟩
      · have := (i4.placed_at (n := ⟨b, i⟩) L hkk).mpr ⟨q, g1, g3, g4, by rw [g5]⟩
        exact Except.ok.inj (this.1.symm.trans hp.1)
      · cases hp'
    subst hn
    obtain ⟨t1, n1, t2, a1, a2, a3, a4, _, a6⟩ := fact_assign L hc.grow65 hs0 (v := v) hkk (hc.normA v) (hc.normA 0)
    unfold Tab.subscript at a1
    rw [i1] at a1
    have b1 : t' = t1 := congrArg Prod.fst (Except.ok.inj a1)
    have b2 : n' = n1 := congrArg Prod.snd (Except.ok.inj a1)
    subst b1 b2
    obtain ⟨t3, c3, o3, d1, d2, d3, d4, _⟩ := i4.writeValue L i5 (x := v) (hc.normA v)
    rw [a2] at d1
    have b3 : t2 = t3 := Except.ok.inj d1
    subst b3
    obtain rfl : o3 = [] := hc.noOverflow _ _ _ _ d2.orep
    have e1 := (d2.loc_read L d4).2.1
    have hat3 : At ((cmpMap c hk).hash kw) t2.tb c3 k n' := by
      rcases d4 with ⟨q, b, i, g1, rfl, g3, g4, g5, _⟩ | ⟨p, _, hp'⟩
      · exact ⟨q, g1, g3, g4, by rw [g5]⟩
      · cases hp'
    obtain ⟨_, w2', _⟩ := wrapper_nav h d2 hat3
    refine ⟨t2, (w3 v).trans a2, ?_, w2'.trans e1, a3, a4, ?_, ?_⟩
    · simp only [Tab.step, Tab.subscript]
      rw [i1]
      simp only [ok_bind]
      rw [a2]
      exact ⟨_, rfl⟩
    · exact a6 (by rw [r2]; intro hh; cases hh)
    · unfold Tab.bucketCount; rw [d3]

/-- **C102**: `map[k]` gives an object that can be read, compared and assigned like a reference to the value of `k`, also later, as long as
nothing is erased and the number of buckets stays the same. -/
theorem C102_wrapper (h : CmpOK c hk kw vw) {ops : List MapOp} (hops : ∀ op ∈ ops, CmpValid hk kw op)
    {t : Tab CmpStore Unit} (ht : After (cmpMap c hk) kw vw ops t) {k : Nat} (hkk : k < 2 ^ kw) :
    ∃ t' w, wrapperOf c hk t k = .ok (t', w) ∧
      (∀ x, t.lookup (cmpMap c hk) k = .ok (some (k, x)) → t' = t) ∧
      (t.lookup (cmpMap c hk) k = .ok none → t'.lookup (cmpMap c hk) k = .ok (some (k, 0)) ∧ t'.size = t.size + 1) ∧
      (∀ k' < 2 ^ kw, k' ≠ k → t'.lookup (cmpMap c hk) k' = t.lookup (cmpMap c hk) k') ∧
      ∀ ops' t2 as, (∀ op ∈ ops', CmpValid hk kw op ∧ Growing op) → t'.run (cmpMap c hk) ops' = .ok (t2, as) →
        t2.bucketCount = t'.bucketCount → RefSpec c hk kw vw t2 w k := by
  have hc := h.covered
  have L := hc.laws
  have hs := hc.sem hops ht
  have hs0 := hs
  have hi0 := fact_insert L hc.grow65 hs (v := 0) hkk (hc.normA 0)
  obtain ⟨l, hi, ha⟩ := hs
  obtain ⟨t', n, x, l', c', o', full', i1, i2, i3, i4, i5, i6, i7, i8⟩ := hi.insert_abs L hc.grow65 ha (v := 0) hkk (hc.normA 0)
  obtain rfl : o' = [] := hc.noOverflow _ _ _ _ i4.orep
  have hp : Placed (cmpMap c hk) t' k n := by
    rcases i5 with ⟨q, b, i, g1, rfl, g3, g4, g5, _⟩ | ⟨p, _, hp'⟩
    · exact (i4.placed_at L hkk).mpr ⟨q, g1, g3, g4, by rw [g5]⟩
    · cases hp'
  refine ⟨t', Wrapper.ofNav n, by unfold wrapperOf; rw [i1]; rfl, ?_⟩
  obtain ⟨t'', n'', j1, j2⟩ := hi0
  rw [i1] at j1
  have e1 : t' = t'' := congrArg Prod.fst (Except.ok.inj j1)
  subst e1
  refine ⟨?_, ?_, ?_, ?_⟩
  · intro y hy
    rcases j2 with ⟨_, _, h2, _⟩ | ⟨h1, _⟩
    · exact h2
    · rw [h1] at hy; cases hy
  · intro hn
    rcases j2 with ⟨y, h1, _⟩ | ⟨_, h2, _, _, h5, _⟩
    · rw [h1] at hn; cases hn
    · refine ⟨?_, h2⟩
      rw [h5]
      show Except.ok (some (k, 0 % 2 ^ vw)) = _
      rw [Nat.zero_mod]
  · intro k' hk' hne
    rcases j2 with ⟨_, _, h2, _⟩ | ⟨_, _, _, _, _, h6⟩
    · rw [h2]
    · exact h6 k' hk' hne
  · intro ops' t2 as ho hr hb
    have hs' : ∃ m', Sem (cmpMap c hk) (cmpPar c hk kw vw) t' m' := by
      rcases i8 with ⟨_, rfl, _⟩ | ⟨h1, _, rfl⟩
      · exact ⟨_, _, i7, ha⟩
      · exact ⟨_, _, i7, ha.put_new (ha.none.mp h1)⟩
    obtain ⟨m', hs'⟩ := hs'
    have hok : ∀ op ∈ ops', OpOK (cmpPar c hk kw vw) op ∧ Growing op := fun op hop => ⟨hc.opOK (ho op hop).1, (ho op hop).2⟩
    have hp2 := fact_stable L hc.noOverflow hc.grow65 hs' hok hr hb hkk hp
    obtain ⟨lx, hix, hax⟩ := hs'
    obtain ⟨t3, l3, k1, k2, k3⟩ := Tab.run_ok L hc.grow65 ops' hix hax (fun op hop => (hok op hop).1)
    rw [hr] at k1
    have e2 : t2 = t3 := congrArg Prod.fst (Except.ok.inj k1)
    subst e2
    exact ref_of_placed h ⟨l3, k2, k3⟩ hkk hp2

/-- `auto x = map[k]`, then the calls `ops'`; what is then read from `x`, what `find(k)` finds, and the number of buckets before and after -/
def wrapTrace (c : VarCfg) (hk : HashKind) (kw vw : Nat) (ops ops' : List MapOp) (k : Nat) : Option (Wrapper × Nat × Option (Nat × Nat) × Nat × Nat) :=
  match Tab.run (cmpMap c hk) (Tab.new (cmpMap c hk) kw vw) ops with
  | .ok (t, _) => match wrapperOf c hk t k with
    | .ok (t', w) => match t'.run (cmpMap c hk) ops' with
      | .ok (t2, _) => match w.read c hk t2, t2.lookup (cmpMap c hk) k with
        | .ok x, .ok y => some (w, x, y, t'.bucketCount, t2.bucketCount)
        | _, _ => none
      | .error _ => none
    | .error _ => none
  | .error _ => none

theorem wrapTrace_spec {ops ops' : List MapOp} {k x n n' : Nat} {y : Option (Nat × Nat)} {w : Wrapper}
    (h : wrapTrace c hk kw vw ops ops' k = some (w, x, y, n, n')) :
    ∃ t t' t2 as, After (cmpMap c hk) kw vw ops t ∧ wrapperOf c hk t k = .ok (t', w) ∧ t'.run (cmpMap c hk) ops' = .ok (t2, as) ∧
      w.read c hk t2 = .ok x ∧ t2.lookup (cmpMap c hk) k = .ok y ∧ t'.bucketCount = n ∧ t2.bucketCount = n' := by
  unfold wrapTrace at h
  split at h
  · next t as h1 =>
    split at h
    · next t' w' h2 =>
      split at h
      · next t2 as' h3 =>
        split at h
        · next x' y' h4 h5 =>
          cases h
          exact ⟨t, t', t2, as', ⟨as, h1⟩, h2, h3, h4, h5, rfl, rfl⟩
        · cases h
      · cases h
    · cases h
  · cases h

/-- 40 entries in 32 buckets; `auto x = map[2015]` adds the key at position 4 of bucket 16, and after further insertions, an assignment and
`shrink_to_fit()` the object `x` still stands for the value of 2015 -/
example : ∃ t t' t2 as, After (cmpMap cmpEx (.xorshift 64)) 11 13 cmpExOps t ∧ wrapperOf cmpEx (.xorshift 64) t 2015 = .ok (t', ⟨16, 4⟩) ∧
    t'.run (cmpMap cmpEx (.xorshift 64)) [.insert 1001 7, .assign 2015 8, .shrink] = .ok (t2, as) ∧
    Wrapper.read cmpEx (.xorshift 64) ⟨16, 4⟩ t2 = .ok 8 ∧ RefSpec cmpEx (.xorshift 64) 11 13 t2 ⟨16, 4⟩ 2015 := by
  obtain ⟨t, t', t2, as, h1, h2, h3, h4, _, h6, h7⟩ := wrapTrace_spec (show wrapTrace cmpEx (.xorshift 64) 11 13 cmpExOps
    [.insert 1001 7, .assign 2015 8, .shrink] 2015 = some (⟨16, 4⟩, 8, some (2015, 8), 32, 32) by decide +kernel)
  obtain ⟨u, w, g1, _, _, _, g5⟩ := C102_wrapper cmpExOK cmpExOps_valid h1 (k := 2015) (by decide)
  rw [h2] at g1
  cases g1
  refine ⟨t, t', t2, as, h1, h2, h3, h4, g5 _ t2 as ?_ h3 (by rw [h6, h7])⟩
  intro op ho
  simp only [List.mem_cons, List.not_mem_nil, or_false] at ho
  rcases ho with rfl | rfl | rfl <;> exact ⟨by decide +kernel, trivial⟩

/-- The object must not be used after an erasure: here `auto x = map[407]; map.erase(148);` makes `x` the value of key 925. -/
theorem C102_after_erase_not :
    ¬ ∀ (ops ops' : List MapOp) (t t' t2 : Tab CmpStore Unit) (as : List Ans) (w : Wrapper) (k x : Nat),
      (∀ op ∈ ops, CmpValid (.xorshift 64) 11 op) → After (cmpMap cmpEx (.xorshift 64)) 11 13 ops t → k < 2 ^ 11 →
      wrapperOf cmpEx (.xorshift 64) t k = .ok (t', w) → (∀ op ∈ ops', CmpValid (.xorshift 64) 11 op) →
      t'.run (cmpMap cmpEx (.xorshift 64)) ops' = .ok (t2, as) → t2.bucketCount = t'.bucketCount →
      t2.lookup (cmpMap cmpEx (.xorshift 64)) k = .ok (some (k, x)) → w.read cmpEx (.xorshift 64) t2 = .ok x := by
  intro hall
  obtain ⟨t, t', t2, as, h1, h2, h3, h4, h5, h6, h7⟩ := wrapTrace_spec (show wrapTrace cmpEx (.xorshift 64) 11 13 cmpExOps
    [.erase 148] 407 = some (⟨16, 1⟩, 2500, some (407, 1100), 32, 32) by decide +kernel)
  have := hall cmpExOps [.erase 148] t t' t2 as _ 407 1100 cmpExOps_valid h1 (by decide) h2 (by decide +kernel) h3 (by rw [h6, h7]) h5
  rw [h4] at this
  cases this

end SC
