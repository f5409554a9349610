import Verif.Props.DebugGroup
/-!
# `clear()` in a debug build of `group_chaining_table`: C81

`Tab.clear` describes the members after the call.  Here is the loop that gets there, with its assertions; it also runs in the destructor and
in move assignments.
-/
namespace SC

/-! ## Model -/

/-- The loop of `clear()`, grp:832-838, with the assertions of `clear(group_i)`, grp:793-806; `s.n` is `group_count()`, grp:923-925, of a table
that has groups (there is nothing to do for others).  The buckets of a group are those below `bucket_count()`, so the assertion of
`clear_bucket`, grp:780, is what grp:800 has tested. -/
def GrpDbg.clearLoop (s : GrpDbg) (d : Dim) : Res GrpDbg :=
  (List.range s.n).foldlM (fun s j => do
    let x ← s.get j
    if x.size = 0 then return s
    ddcheck true (∀ i < x.gs, j * d.bpg + i < 2 ^ d.tb → (j * d.bpg + i) / d.bpg = j)
    s.clearGroup d j) s

/-! ## Proof -/

section
variable {sp : Bool} {c : GrpDbgCfg} {kw lo hi : Nat} {s : GrpDbg} {d : Dim} {cont : Cont}

theorem RowRep.eq_none {H : HashMapping} {tb b : Nat} {r : PlainRow} (h : RowRep H tb b r []) (h0 : RowNull r []) : r = PlainRow.none := by
  obtain ⟨k, v, n⟩ := r
  obtain ⟨h1, h2⟩ := h0 rfl
  have h3 := h.size
  simp only at h1 h2
  simp only [List.length_nil] at h3
  rw [h1, h2, h3]
  rfl

theorem GrpDbgRep.clearLoop_upto (h : GrpDbgRep sp c kw lo hi s d cont) (hp : 0 < d.bpg) : ∀ m, m ≤ s.n →
    ∃ s', (List.range m).foldlM (fun s j => do
        let x ← s.get j
        if x.size = 0 then return s
        ddcheck true (∀ i < x.gs, j * d.bpg + i < 2 ^ d.tb → (j * d.bpg + i) / d.bpg = j)
        s.clearGroup d j) s = (.ok s' : Res GrpDbg) ∧ s'.n = s.n ∧ (∀ j < m, (s'.grp j).Cleared) ∧ (∀ j, m ≤ j → s'.grp j = s.grp j) ∧
      ∀ b < 2 ^ d.tb, (b / d.bpg < m → s'.row b = PlainRow.none) ∧ (m ≤ b / d.bpg → s'.row b = s.row b) := by
  intro m
  induction m with
  | zero => intro _; exact ⟨s, rfl, rfl, fun j hj => absurd hj (by omega), fun _ _ => rfl, fun b _ => ⟨fun hb => absurd hb (Nat.not_lt_zero _), fun _ => rfl⟩⟩
  | succ m ih =>
    intro hm
    obtain ⟨s1, e1, e2, e3, e4, e5⟩ := ih (by omega)
    rw [List.range_succ, List.foldlM_append, e1]
    simp only [List.foldlM_cons, List.foldlM_nil, ok_bind, bind_pure]
    have hget : s1.get m = .ok (s.grp m) := by
      unfold GrpDbg.get
      rw [if_pos (by omega), e4 m (Nat.le_refl _)]
    rw [hget, ok_bind]
    rcases h.grp m (by omega) with ⟨hc, h0⟩ | ⟨hr, _, hpos⟩
    · rw [if_pos hc.size]
      refine ⟨s1, rfl, e2, ?_, fun j hj => e4 j (by omega), ?_⟩
      · intro j hj
        by_cases hjm : j = m
        · subst hjm; rw [e4 j (Nat.le_refl _)]; exact hc
        · exact e3 j (by omega)
      · intro b hb
        refine ⟨fun hbm => ?_, fun hbm => (e5 b hb).2 (by omega)⟩
        by_cases hbe : b / d.bpg = m
        · rw [(e5 b hb).2 (by omega)]
          have h1 := h0 (b % d.bpg)
          unfold localCont at h1
          rw [if_pos (Nat.mod_lt _ hp), ← hbe, Nat.div_add_mod'] at h1
          have h2 := h.row b hb
          rw [h1] at h2
          exact h2.1.eq_none h2.2
        · exact (e5 b hb).1 (by omega)
    · have hgs := hr.ends.gs
      have hsz := hr.ends.size
      rw [if_neg (by omega)]
      have hcheck : ∀ i < (s.grp m).gs, m * d.bpg + i < 2 ^ d.tb → (m * d.bpg + i) / d.bpg = m := by
        intro i hi _
        rw [Nat.mul_comm, Nat.mul_add_div hp, Nat.div_eq_of_lt (by omega), Nat.add_zero]
      rw [ddcheck_ok hcheck, ok_bind]
      unfold GrpDbg.clearGroup
      rw [hget, ok_bind, ddcheck_ok hgs, ok_bind, pure_eq_ok]
      refine ⟨_, rfl, e2, ?_, ?_, ?_⟩
      · intro j hj
        by_cases hjm : j = m
        · subst hjm; simp only [upd_same]; exact cleared_clear _
        · simp only [upd_other _ _ hjm]; exact e3 j (by omega)
      · intro j hj
        simp only [upd_other _ _ (show j ≠ m by omega)]
        exact e4 j (by omega)
      · intro b hb
        have hdm := Nat.div_add_mod' b d.bpg
        have hml := Nat.mod_lt b hp
        constructor
        · intro hbm
          by_cases hbe : b / d.bpg = m
          · simp only
            rw [hbe] at hdm
            rw [if_pos ⟨by omega, by omega, hb⟩]
          · simp only
            split
            · rfl
            · exact (e5 b hb).1 (by omega)
        · intro hbm
          have h1 : (m + 1) * d.bpg ≤ b / d.bpg * d.bpg := Nat.mul_le_mul_right _ hbm
          rw [Nat.add_mul, Nat.one_mul] at h1
          simp only
          rw [if_neg (by omega)]
          exact (e5 b hb).2 (by omega)

end

/-! ## C81 -/

variable {g : GrpCfg} {hk : HashKind} {kw vw : Nat}

/-- **C81** (`clear()`): in a debug build of `group_chaining_table` the loop of `clear()` fails no assertion after any history, and afterwards no
group and no bucket has memory left when the arrays are released. -/
theorem C81_group_debug_clear (h : GrpOK hk kw vw) {ops : List MapOp} (hops : ∀ op ∈ ops, GrpDbgValid hk kw vw op) {t : Tab GrpDbg Unit}
    {as : List Ans} (ht : Tab.run (grpDbg g hk) (Tab.new (grpDbg g hk) kw vw) ops = .ok (t, as)) (hb : t.bucketCount ≠ 0) :
    ∃ s, t.store.clearLoop (t.dim (grpDbg g hk)) = .ok s ∧ s.n = t.bucketCount / t.bpg + 1 ∧
      (∀ j < s.n, (s.grp j).size = 0 ∧ (s.grp j).keys.data = none ∧ (s.grp j).keys.plain = none ∧ (s.grp j).vals.data = none ∧
        (s.grp j).vals.plain = none ∧ (s.grp j).border = none) ∧
      ∀ b < t.bucketCount, (s.row b).keys = none ∧ (s.row b).vals = none ∧ (s.row b).size = 0 := by
  obtain ⟨L, hg, _⟩ := h.dbgPar (g := g)
  obtain ⟨t', h1, l, h2, _⟩ := grpDbg_sem (g := g) h hops
  have : t' = t := congrArg Prod.fst (Except.ok.inj (h1.symm.trans ht))
  subst t'
  have h0 : t.tb ≠ 0 := by
    intro e
    unfold Tab.bucketCount at hb
    rw [if_pos e] at hb
    exact hb rfl
  have hbc : t.bucketCount = 2 ^ t.tb := by unfold Tab.bucketCount; rw [if_neg h0]
  rcases h2 with ⟨_, _, _, _, e, _⟩ | ⟨cont, o, full, hl, _⟩
  · exact absurd e h0
  · have hr := hl.rep.1
    obtain ⟨s', a1, a2, a3, _, a5⟩ := hr.clearLoop_upto (show 0 < (t.dim (grpDbg g hk)).bpg from hl.bpg_pos) _ (Nat.le_refl _)
    have hn : t.store.n = t.bucketCount / t.bpg + 1 := by rw [hbc]; exact hr.n
    refine ⟨s', a1, a2.trans hn, ?_, ?_⟩
    · intro j hj
      have := a3 j (by omega)
      exact ⟨this.size, this.kdata, this.kplain, this.vdata, this.vplain, this.border⟩
    · intro b hb'
      rw [hbc] at hb'
      have hlt : b / t.bpg < t.store.n := by
        rw [hn, hbc]
        exact Nat.lt_succ_of_le (Nat.div_le_div_right (by omega))
      rw [(a5 b hb').1 hlt]
      exact ⟨rfl, rfl, rfl⟩

example : ∃ (t : Tab GrpDbg Unit) (s : GrpDbg), t.size = 2 ∧ t.store.clearLoop (t.dim grpDbgEx) = .ok s ∧
    (∀ j < s.n, (s.grp j).size = 0) ∧ ∀ b < 16, (s.row b).size = 0 := by
  obtain ⟨t, as, h1, h2, h3, _⟩ := grpDbgExAfter
  obtain ⟨s, a1, _, a3, a4⟩ := C81_group_debug_clear (g := grpEx) grpExOK grpDbgExShort_valid h1 (by omega)
  exact ⟨t, s, h3, a1, fun j hj => (a3 j hj).1, fun b hb => (a4 b (by omega)).2.2⟩

end SC
