import Verif.Group.DebugTable
import Verif.Table.FitRun
import Verif.Props.Group
import Verif.Props.Debug
/-!
# Properties of debug builds of `group_chaining_table`: C81, C82

`g` says which version of `select64` is used and what fresh memory contains, `hk` is the hash mapping.
-/
namespace SC

variable {g : GrpCfg} {hk : HashKind} {kw vw : Nat}

/-- Valid calls in a debug build: as in a release build, and values have at most `value_width()` bits. -/
def GrpDbgValid (hk : HashKind) (kw vw : Nat) (op : MapOp) : Prop :=
  ValidOp kw (hk.lo kw 64) (hk.width kw - 1) (fun v => v < 2 ^ vw) op

instance (hk : HashKind) (kw vw : Nat) (op : MapOp) : Decidable (GrpDbgValid hk kw vw op) :=
  inferInstanceAs (Decidable (ValidOp _ _ _ _ _))

/-- `group_chaining_table` in a debug build -/
abbrev grpDbg (g : GrpCfg) (hk : HashKind) : Cfg GrpDbg Unit := grpDbgMap (grpDbgCfg g hk)

/-- what is known after a history -/
theorem grpDbg_sem (h : GrpOK hk kw vw) {ops : List MapOp} (hops : ∀ op ∈ ops, GrpDbgValid hk kw vw op) :
    ∃ t, Tab.run (grpDbg g hk) (Tab.new (grpDbg g hk) kw vw) ops = .ok (t, FMap.empty.run (fun v => v % 2 ^ vw) ops) ∧
      Sem (grpDbg g hk) (grpDbgPar true (grpDbgCfg g hk) hk kw vw) t (FMap.empty.after (fun v => v % 2 ^ vw) ops) := by
  obtain ⟨L, hg, _⟩ := h.dbgPar (g := g)
  exact fit_sem L hg (tr := fun w v => v % 2 ^ w) rfl rfl rfl hops

/-! ## C81 -/

/-- **C81** (answers): in a debug build of `group_chaining_table` every sequence of valid calls on a new table runs without a failing
assertion and gives the answers of a finite map. -/
theorem C81_group_debug_semantics (h : GrpOK hk kw vw) (ops : List MapOp) (hops : ∀ op ∈ ops, GrpDbgValid hk kw vw op) :
    grpDbgNew hk kw vw = .ok () ∧ ∃ t,
      Tab.run (grpDbg g hk) (Tab.new (grpDbg g hk) kw vw) ops = .ok (t, FMap.empty.run (fun v => v % 2 ^ vw) ops) := by
  obtain ⟨t, h1, _⟩ := grpDbg_sem (g := g) h hops
  exact ⟨(h.dbgPar (g := g)).2.2, t, h1⟩

theorem grpDbgExOps_valid : ∀ op ∈ grpExOps, GrpDbgValid (.xorshift 64) 11 13 op := by decide +kernel

/-- the table of the examples -/
abbrev grpDbgEx : Cfg GrpDbg Unit := grpDbg grpEx (.xorshift 64)

example : ∃ t, Tab.run grpDbgEx (Tab.new grpDbgEx 11 13) grpExOps = .ok (t, FMap.empty.run (fun v => v % 2 ^ 13) grpExOps) :=
  (C81_group_debug_semantics grpExOK grpExOps grpDbgExOps_valid).2

/-- a shorter history with a rehash -/
def grpDbgExShort : List MapOp := [.insert 5 6, .insert 700 9, .insert 2047 8191, .erase 700, .reserve 16, .assign 5 7, .find 2047]

theorem grpDbgExShort_valid : ∀ op ∈ grpDbgExShort, GrpDbgValid (.xorshift 64) 11 13 op := by decide +kernel

/-- the outcome of the history -/
theorem grpDbgExAfter : ∃ t as, Tab.run grpDbgEx (Tab.new grpDbgEx 11 13) grpDbgExShort = .ok (t, as) ∧ t.bucketCount = 16 ∧
    t.size = 2 ∧ t.bpg = 64 := by
  have h : (match Tab.run grpDbgEx (Tab.new grpDbgEx 11 13) grpDbgExShort with
    | .ok (t, _) => t.bucketCount == 16 && t.size == 2 && t.bpg == 64
    | .error _ => false) = true := by decide +kernel
  revert h
  generalize Tab.run _ _ _ = r
  cases r with
  | error e => intro h; cases h
  | ok r =>
    intro h
    simp only [Bool.and_eq_true, beq_iff_eq] at h
    exact ⟨r.1, r.2, rfl, h.1.1, h.1.2, h.2⟩

/-- **C81** (iteration): nor does an assertion fail when the resulting table is traversed forwards, backwards, or backwards with
erasing; navigators obtained from `find` can be compared and dereferenced. -/
theorem C81_group_debug_iteration (h : GrpOK hk kw vw) {ops : List MapOp}
    (hops : ∀ op ∈ ops, GrpDbgValid hk kw vw op) {t : Tab GrpDbg Unit} {as : List Ans}
    (ht : Tab.run (grpDbg g hk) (Tab.new (grpDbg g hk) kw vw) ops = .ok (t, as)) :
    ForwardSpec (grpDbg g hk) kw t ∧ NavSpec (grpDbg g hk) kw t ∧ SizeSpec (grpDbg g hk) kw t ∧
      (t.size ≠ 0 → ∃ l t', t.pairs (grpDbg g hk) = .ok l ∧ t.pairsBack (grpDbg g hk) = .ok l.reverse ∧
        t.drainAll (grpDbg g hk) = .ok (t', l.reverse) ∧ t'.size = 0) := by
  obtain ⟨t', h1, h2⟩ := grpDbg_sem (g := g) h hops
  rw [ht] at h1
  have : t = t' := congrArg Prod.fst (Except.ok.inj h1)
  subst this
  exact fit_iteration (h.dbgPar (g := g)).1 (fun _ _ _ _ h => h.1) h2

example : ∃ (t : Tab GrpDbg Unit) (l : List (Nat × Nat)) (t' : Tab GrpDbg Unit),
    t.pairsBack grpDbgEx = .ok l ∧ l.length = 2 ∧ t.drainAll grpDbgEx = .ok (t', l) ∧ t'.size = 0 := by
  obtain ⟨t, as, h1, _, h3, _⟩ := grpDbgExAfter
  obtain ⟨_, _, ⟨_, ⟨l, e1, e2⟩, _⟩, h⟩ := C81_group_debug_iteration grpExOK grpDbgExShort_valid h1
  obtain ⟨l', t', a1, a2, a3, a4⟩ := h (by omega)
  rw [e1] at a1
  cases a1
  exact ⟨t, l.reverse, t', a2, by rw [List.length_reverse]; omega, a3, a4⟩

/-! ## C82 -/

/-- **C82** (insertion): a debug build throws when a key that is not in the table is inserted with a value of more than
`value_width()` bits. -/
theorem C82_group_debug_insert_wide (h : GrpOK hk kw vw) {ops : List MapOp}
    (hops : ∀ op ∈ ops, GrpDbgValid hk kw vw op) {x y : Nat} (hx : x < 2 ^ kw) (hy : 2 ^ vw ≤ y)
    (hnew : (FMap.empty.after (fun v => v % 2 ^ vw) ops).get x = none) :
    Tab.run (grpDbg g hk) (Tab.new (grpDbg g hk) kw vw) (ops ++ [.insert x y]) = .error .exc := by
  obtain ⟨L, hg, _⟩ := h.dbgPar (g := g)
  obtain ⟨t, h1, l, h2, h3⟩ := grpDbg_sem (g := g) h hops
  refine Tab.run_one_error _ h1 (step_insert_error ?_)
  refine ins_reject L (fun _ => Nat.lt_irrefl _) ?_ depth t l x h2 hx (.inl hg) (h3.none.mp hnew)
  intro s d cont b q hd ⟨hR, hdv⟩ hb hq hf hvw
  exact grpDbg_push_wide h.dbgStore hR hd hb hq hf (by rw [hdv]; exact hy)

example : Tab.run grpDbgEx (Tab.new grpDbgEx 11 13) (grpExOps ++ [.insert 5 (2 ^ 13)]) = .error .exc :=
  C82_group_debug_insert_wide grpExOK grpDbgExOps_valid (show 5 < 2 ^ 11 by decide) (Nat.le_refl _) (by decide +kernel)

/-- **C82** (keys): with a bijective hash function a debug build throws when a key above `max_key()` is inserted. -/
theorem C82_group_debug_large_key (h : GrpOK hk kw vw) (hbij : hk ≠ .splitMix) {ops : List MapOp}
    (hops : ∀ op ∈ ops, GrpDbgValid hk kw vw op) {x : Nat} (hx : 2 ^ kw ≤ x) (y : Nat) :
    Tab.run (grpDbg g hk) (Tab.new (grpDbg g hk) kw vw) (ops ++ [.insert x y]) = .error .exc := by
  obtain ⟨L, hg, _⟩ := h.dbgPar (g := g)
  obtain ⟨t, h1, l, h2, h3⟩ := grpDbg_sem (g := g) h hops
  have hkw : 3 ≤ kw := by have := h.hash; cases hk <;> exact this.1
  exact Tab.run_one_error _ h1 (step_insert_error (ins_bad_key L h2
    (fun tb => dbgMapping_exc hbij (show 1 ≤ kw by omega) L.kw_le hx) 64 y))

example : Tab.run grpDbgEx (Tab.new grpDbgEx 11 13) (grpExOps ++ [.insert 2048 1]) = .error .exc :=
  C82_group_debug_large_key grpExOK (by simp) grpDbgExOps_valid (show 2 ^ 11 ≤ 2048 by decide) 1

/-- **C82** (assignment): a debug build throws when a value of more than `value_width()` bits is assigned. -/
theorem C82_group_debug_assign_wide (h : GrpOK hk kw vw) {ops : List MapOp}
    (hops : ∀ op ∈ ops, GrpDbgValid hk kw vw op) {x y : Nat} (hx : x < 2 ^ kw) (hy : 2 ^ vw ≤ y) :
    Tab.run (grpDbg g hk) (Tab.new (grpDbg g hk) kw vw) (ops ++ [.assign x y]) = .error .exc := by
  obtain ⟨L, hg, _⟩ := h.dbgPar (g := g)
  obtain ⟨t, h1, l, h2, h3⟩ := grpDbg_sem (g := g) h hops
  obtain ⟨t', n, z, l', c, o, full, a1, _, _, hl, hloc, _⟩ := h2.insert_abs L hg h3 hx (v := 0)
    (show fitNormO (fun w v => v % 2 ^ w) vw 0 = fitNorm (fun w v => v % 2 ^ w) vw 0 from fit_iff.mpr (Nat.two_pow_pos _))
  have a1' : t.subscript (grpDbg g hk) x = .ok (t', n) := a1
  have ho : o = [] := hl.orep.1
  subst ho
  rcases hloc with ⟨q, b, i, hi, rfl, hb, hm, hc, hk'⟩ | ⟨p, _, hp⟩
  rotate_left
  · simp at hp
  have hbc := hl.bc L
  have hvw : (t'.dim (grpDbg g hk)).vw = vw := hl.tvw
  have hw : (grpDbg g hk).ops.writeValue t'.store (t'.dim (grpDbg g hk)) b i y = .error .exc := by
    show (ddcheck true (b < 2 ^ t'.tb) >>= fun _ => _) = _
    have := Nat.two_pow_pos (t'.dim (grpDbg g hk)).vw
    have hn : ¬ y ≤ 2 ^ (t'.dim (grpDbg g hk)).vw - 1 := by rw [hvw] at *; omega
    rw [ddcheck_ok hb, ok_bind, ddcheck_fails hn, error_bind]
  refine Tab.run_one_error _ h1 ?_
  simp only [Tab.step, a1', ok_bind, Tab.writeValue, hbc, if_neg (show ¬ b = 2 ^ t'.tb by omega), ddcheck_ok hb, hw, error_bind]

example : Tab.run grpDbgEx (Tab.new grpDbgEx 11 13) (grpExOps ++ [.assign 74 (2 ^ 13)]) = .error .exc :=
  C82_group_debug_assign_wide grpExOK grpDbgExOps_valid (show 74 < 2 ^ 11 by decide) (Nat.le_refl _)

end SC
