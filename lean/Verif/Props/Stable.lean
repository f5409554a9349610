import Verif.Table.Stable
import Verif.Props.Table
import Verif.Props.Compact
import Verif.Props.Group
/-!
# How long a navigator can be used: C91

For `separate_chaining_map`, `compact_chaining_map` and `group_chaining_table` without overflow table.
-/
namespace SC

variable {KB VB : Type} {p : SepCfg KB VB} {hk : HashKind} {tr : Nat → Nat → Nat} {W kw vw : Nat} {cv : VarCfg} {cg : GrpCfg}

/-- **C91** for `separate_chaining_map` -/
theorem C91_separate_stable (h : SepOK p hk tr W kw vw) {ops : List MapOp} (hops : ∀ op ∈ ops, SepValid hk W kw op)
    {t : Tab (SepStore KB VB) Unit} (ht : SepAfter p hk kw vw ops t) : StableSpec (sepMap p hk) kw (SepValid hk W kw) t := by
  obtain ⟨P, hP, hs, rfl, _, _⟩ := sep_sem h hops ht
  exact fact_stableSpec hP.laws hP.noOverflow hP.grow65 (fun op => hP.opOK) hs

/-- **C91** for `compact_chaining_map` -/
theorem C91_compact_stable (h : CmpOK cv hk kw vw) {ops : List MapOp} (hops : ∀ op ∈ ops, CmpValid hk kw op)
    {t : Tab CmpStore Unit} (ht : After (cmpMap cv hk) kw vw ops t) : StableSpec (cmpMap cv hk) kw (CmpValid hk kw) t := by
  have hc := h.covered (c := cv)
  have := fact_stableSpec hc.laws hc.noOverflow hc.grow65 (fun op => hc.opOK) (hc.sem hops ht)
  rw [hc.kw] at this
  exact this

/-- **C91** for `group_chaining_table` -/
theorem C91_group_stable (h : GrpOK hk kw vw) {ops : List MapOp} (hops : ∀ op ∈ ops, GrpValid hk kw op)
    {t : Tab GrpStore Unit} (ht : After (grpMap cg hk) kw vw ops t) : StableSpec (grpMap cg hk) kw (GrpValid hk kw) t := by
  have hc := h.covered (c := cg) (sp := cg.strict) id
  have := fact_stableSpec hc.laws hc.noOverflow hc.grow65 (fun op => hc.opOK) (hc.sem hops ht)
  rw [hc.kw] at this
  exact this

/-- the navigator of a key before and after further calls, and the numbers of buckets -/
def navTrace {S : Type} (g : Cfg S Unit) (kw vw : Nat) (ops ops' : List MapOp) (k : Nat) : Option (Nav × Nav × Nat × Nat) :=
  match Tab.run g (Tab.new g kw vw) ops with
  | .ok (t, _) => match t.run g ops', t.find g k with
    | .ok (t', _), .ok n => match t'.find g k with
      | .ok n' => some (n, n', t.bucketCount, t'.bucketCount)
      | .error _ => none
    | _, _ => none
  | .error _ => none

theorem navTrace_spec {S : Type} {g : Cfg S Unit} {kw vw : Nat} {ops ops' : List MapOp} {k : Nat} {n n' : Nav} {x x' : Nat}
    (h : navTrace g kw vw ops ops' k = some (n, n', x, x')) : ∃ t t' as, After g kw vw ops t ∧ t.run g ops' = .ok (t', as) ∧
      t.find g k = .ok n ∧ t'.find g k = .ok n' ∧ t.bucketCount = x ∧ t'.bucketCount = x' := by
  unfold navTrace at h
  cases h1 : Tab.run g (Tab.new g kw vw) ops with
  | error e => rw [h1] at h; cases h
  | ok r =>
    obtain ⟨t, as⟩ := r
    rw [h1] at h
    simp only at h
    cases h2 : t.run g ops' with
    | error e => rw [h2] at h; cases h
    | ok r' =>
      obtain ⟨t', as'⟩ := r'
      cases h3 : t.find g k with
      | error e => rw [h2, h3] at h; cases h
      | ok m =>
        rw [h2, h3] at h
        simp only at h
        cases h4 : t'.find g k with
        | error e => rw [h4] at h; cases h
        | ok m' =>
          rw [h4] at h
          cases h
          exact ⟨t, t', as', ⟨as, h1⟩, h2, h3, h4, rfl, rfl⟩

def stEx (n : Nat) : List MapOp := (List.range n).map (fun i => .insert (17 * i) i)

/-- 8 elements in 16 buckets; the element with key 119 at position 1 of bucket 7 is still there after three insertions, an assignment and
`shrink_to_fit()` -/
example : ∃ t t' as, SepAfter exCfg (.xorshift 16) 10 20 (stEx 8) t ∧
    t.run (sepMap exCfg (.xorshift 16)) [.insert 1000 1, .insert 1001 7, .insert 1002 8, .assign 102 9, .shrink] = .ok (t', as) ∧
    t.bucketCount = 16 ∧ t'.bucketCount = 16 ∧ Placed (sepMap exCfg (.xorshift 16)) t 119 ⟨7, 1⟩ ∧
    Placed (sepMap exCfg (.xorshift 16)) t' 119 ⟨7, 1⟩ := by
  have hv : ∀ op ∈ stEx 8, SepValid (.xorshift 16) 16 10 op := by decide +kernel
  obtain ⟨t, t', as, h1, h2, h3, h4, h5, h6⟩ := navTrace_spec (show navTrace (sepMap exCfg (.xorshift 16)) 10 20 (stEx 8)
    [.insert 1000 1, .insert 1001 7, .insert 1002 8, .assign 102 9, .shrink] 119 = some (⟨7, 1⟩, ⟨7, 1⟩, 16, 16) by decide +kernel)
  have hs := C91_separate_stable exOK hv h1
  have hp : Placed (sepMap exCfg (.xorshift 16)) t 119 ⟨7, 1⟩ := by
    refine ⟨h3, ?_⟩
    have hw : (match Tab.run (sepMap exCfg (.xorshift 16)) (Tab.new (sepMap exCfg (.xorshift 16)) 10 20) (stEx 8) with
      | .ok (t, _) => t.navEq (sepMap exCfg (.xorshift 16)) ⟨7, 1⟩ Nav.end_ == .ok false
      | .error _ => false) = true := by decide +kernel
    obtain ⟨as, h1⟩ := h1
    rw [h1] at hw
    simpa using hw
  exact ⟨t, t', as, h1, h2, h5, h6, hp, hs.calls _ t' as 119 ⟨7, 1⟩ (by
    intro op ho
    simp only [List.mem_cons, List.not_mem_nil, or_false] at ho
    rcases ho with rfl | rfl | rfl | rfl | rfl <;> exact ⟨by decide +kernel, trivial⟩) h2 (by rw [h5, h6]) (by decide) hp⟩

/-- 25 elements in 32 buckets; when key 0 at the front of bucket 0 is erased, key 408 moves from position 1 to position 0 -/
example : (⟨0, 1⟩ : Nav).without ⟨0, 0⟩ = ⟨0, 0⟩ ∧ navTrace (sepMap exCfg (.xorshift 16)) 10 20 (stEx 25) [.erase 0] 408 = some (⟨0, 1⟩, ⟨0, 0⟩, 32, 32) ∧
    navTrace (sepMap exCfg (.xorshift 16)) 10 20 (stEx 25) [] 0 = some (⟨0, 0⟩, ⟨0, 0⟩, 32, 32) :=
  ⟨by decide, by decide +kernel, by decide +kernel⟩

/-- The condition on the number of buckets is needed: an insertion that enlarges the table moves other elements, here key 340 from bucket 12
to bucket 44. -/
theorem C91_enlarging_moves :
    ¬ ∀ (ops ops' : List MapOp) (t t' : Tab (SepStore PlainB PlainB) Unit) (as : List Ans) (k : Nat) (n : Nav),
      (∀ op ∈ ops, SepValid (.xorshift 16) 16 10 op) → SepAfter exCfg (.xorshift 16) 10 20 ops t →
      (∀ op ∈ ops', SepValid (.xorshift 16) 16 10 op ∧ Growing op) → t.run (sepMap exCfg (.xorshift 16)) ops' = .ok (t', as) →
      k < 2 ^ 10 → t.find (sepMap exCfg (.xorshift 16)) k = .ok n → t'.find (sepMap exCfg (.xorshift 16)) k = .ok n := by
  intro hall
  obtain ⟨t, t', as, h1, h2, h3, h4, _, _⟩ := navTrace_spec (show navTrace (sepMap exCfg (.xorshift 16)) 10 20 (stEx 40)
    [.insert 1000 1, .insert 17 5, .insert 1001 7] 340 = some (⟨12, 0⟩, ⟨44, 0⟩, 32, 64) by decide +kernel)
  have := hall (stEx 40) _ t t' as 340 ⟨12, 0⟩ (by decide +kernel) h1 (by
    intro op ho
    simp only [List.mem_cons, List.not_mem_nil, or_false] at ho
    rcases ho with rfl | rfl | rfl <;> exact ⟨by decide +kernel, trivial⟩) h2 (by decide) h3
  rw [h4] at this
  cases this

example : ∃ t, After (cmpMap cmpEx (.xorshift 64)) 11 13 cmpExOps t ∧ t.size = 40 ∧ StableSpec (cmpMap cmpEx (.xorshift 64)) 11 (CmpValid (.xorshift 64) 11) t := by
  obtain ⟨t, ht, _, h2⟩ := cmpExAfter
  exact ⟨t, ht, h2, C91_compact_stable cmpExOK cmpExOps_valid ht⟩

example : ∃ t, After (grpMap grpEx (.xorshift 64)) 11 13 grpExOps t ∧ t.size = 40 ∧ StableSpec (grpMap grpEx (.xorshift 64)) 11 (GrpValid (.xorshift 64) 11) t := by
  obtain ⟨t, ht, _, h2, _⟩ := grpExAfter
  exact ⟨t, ht, h2, C91_group_stable grpExOK grpExOps_valid ht⟩

end SC
