import Verif.Table.BidiDebug
import Verif.Props.Debug
import Verif.Props.DebugCompact
import Verif.Props.DebugGroup
/-!
# Navigators and iterators in debug builds: C110
-/
namespace SC

section separate
variable {KB VB : Type} {k : DbgCfg KB} {vops : BucketOps VB} {vnull : VB → Bool} {strat : Strategy} {maxBucket : Nat}
  {hk : HashKind} {kbits vbits : Nat} {tr : Nat → Nat → Nat} {W kw vw : Nat}

/-- **C110**, `separate_chaining_map`: after any valid history in a debug build, each sequence of `++` and `--` leads to what `DbgWalkSpec`
(navigators) and `DbgIterSpec` (iterators) say, and a range-based `for` loop sees all pairs. -/
theorem C110_separate_debug_walk (h : SepDbgTabOK k vops vnull maxBucket hk kbits vbits tr W kw vw) {ops : List MapOp}
    (hops : ∀ op ∈ ops, DbgValid strat hk W kw vw op) {t : Tab (SepDbg (DbgB KB) VB) Unit} {as : List Ans}
    (ht : Tab.run (dbgMap k vops vnull strat maxBucket hk kbits) (Tab.new (dbgMap k vops vnull strat maxBucket hk kbits) kw vw) ops =
      .ok (t, as)) :
    DbgWalkSpec (dbgMap k vops vnull strat maxBucket hk kbits) t ∧ DbgIterSpec (dbgMap k vops vnull strat maxBucket hk kbits) t ∧
      t.rangeDeref (dbgMap k vops vnull strat maxBucket hk kbits) = t.pairs (dbgMap k vops vnull strat maxBucket hk kbits) := by
  obtain ⟨P, L, hg, hno, e1, e2, e3, e4, _, t', h1, h2⟩ := dbg_sem (strat := strat) h hops
  rw [ht] at h1
  have : t = t' := congrArg Prod.fst (Except.ok.inj h1)
  subst this
  exact ⟨fact_dbgWalk L rfl hno h2, fact_dbgIter L rfl hno h2, fact_rangeDeref L hno h2⟩

end separate

/-- **C110**, `compact_chaining_map`. -/
theorem C110_compact_debug_walk {v : VarCfg} {hk : HashKind} {kbits kw vw : Nat} (h : CmpDbgTabOK v hk kbits kw vw) {ops : List MapOp}
    (hops : ∀ op ∈ ops, CmpDbgValid hk kw vw op) {t : Tab CmpDbg Unit} {as : List Ans}
    (ht : Tab.run (cmpDbg v hk kbits) (Tab.new (cmpDbg v hk kbits) kw vw) ops = .ok (t, as)) :
    DbgWalkSpec (cmpDbg v hk kbits) t ∧ DbgIterSpec (cmpDbg v hk kbits) t ∧ t.rangeDeref (cmpDbg v hk kbits) = t.pairs (cmpDbg v hk kbits) := by
  obtain ⟨t', h1, h2⟩ := cmpDbg_sem h hops
  rw [ht] at h1
  have : t = t' := congrArg Prod.fst (Except.ok.inj h1)
  subst this
  have L := h.par.1
  exact ⟨fact_dbgWalk L rfl (fun _ _ _ _ h => h.1) h2, fact_dbgIter L rfl (fun _ _ _ _ h => h.1) h2, fact_rangeDeref L (fun _ _ _ _ h => h.1) h2⟩

/-- **C110**, `group_chaining_table`. -/
theorem C110_group_debug_walk {g : GrpCfg} {hk : HashKind} {kw vw : Nat} (h : GrpOK hk kw vw) {ops : List MapOp}
    (hops : ∀ op ∈ ops, GrpDbgValid hk kw vw op) {t : Tab GrpDbg Unit} {as : List Ans}
    (ht : Tab.run (grpDbg g hk) (Tab.new (grpDbg g hk) kw vw) ops = .ok (t, as)) :
    DbgWalkSpec (grpDbg g hk) t ∧ DbgIterSpec (grpDbg g hk) t ∧ t.rangeDeref (grpDbg g hk) = t.pairs (grpDbg g hk) := by
  obtain ⟨t', h1, h2⟩ := grpDbg_sem (g := g) h hops
  rw [ht] at h1
  have : t = t' := congrArg Prod.fst (Except.ok.inj h1)
  subst this
  have L := (h.dbgPar (g := g)).1
  exact ⟨fact_dbgWalk L rfl (fun _ _ _ _ h => h.1) h2, fact_dbgIter L rfl (fun _ _ _ _ h => h.1) h2, fact_rangeDeref L (fun _ _ _ _ h => h.1) h2⟩

/-! ## Examples -/

/-- behind the last element -/
theorem Seq.walk_up (N : Nat) : ∀ (n i : Nat), i + n ≤ N → i < N →
    Seq.walk N (some i) (List.replicate n true) = some (if i + n < N then some (i + n) else none) := by
  intro n
  induction n with
  | zero => intro i _ hi; simp [Seq.walk, hi]
  | succ n ih =>
    intro i h hi
    rw [List.replicate_succ, Seq.walk]
    by_cases h1 : i + 1 < N
    · rw [if_pos h1, ih (i + 1) (by omega) h1, show i + 1 + n = i + (n + 1) by omega]
    · have : n = 0 := by omega
      subst this
      rw [if_neg h1]
      simp [Seq.walk]

theorem Seq.walk_append (N : Nat) : ∀ (ms ms' : List Bool) (p : Option Nat), Seq.walk N p (ms ++ ms') = (Seq.walk N p ms).bind (fun q => Seq.walk N q ms') := by
  intro ms
  induction ms with
  | nil => intro ms' p; cases p <;> rfl
  | cons m ms ih =>
    intro ms' p
    cases p with
    | none => rfl
    | some i => cases m <;> exact ih ms' _

/-- The table of the other examples has 60 elements.  59 steps lead to the last one, one more to the end, and from there the step back, which
release builds do (C66), fails. -/
example : ∃ (t : Tab (SepDbg (DbgB PlainB) (DbgB PlainB)) Unit) (l : List (Nat × Nat)) (n n' : Nav) (e : Nat × Nat), t.pairs dbgEx = .ok l ∧ l.length = 60 ∧
    t.beginSteps dbgEx (List.replicate 59 true) = .ok n ∧ l[59]? = some e ∧ t.keyAt dbgEx n = .ok e.1 ∧
    t.beginSteps dbgEx (List.replicate 60 true) = .ok n' ∧ t.navEq dbgEx n' Nav.end_ = .ok true ∧
    t.beginSteps dbgEx (List.replicate 60 true ++ [false]) = .error .exc := by
  obtain ⟨t, as, h1, _, h3⟩ := dbgExAfter
  obtain ⟨_, _, ⟨_, ⟨l, e1, e2⟩, _⟩, _⟩ := C77_debug_iteration dbgExOK dbgExOps_valid h1
  obtain ⟨⟨l', w1, w2⟩, _⟩ := C110_separate_debug_walk dbgExOK dbgExOps_valid h1
  rw [e1] at w1
  cases w1
  have hl : l.length = 60 := by omega
  rw [hl] at w2
  have a1 := w2 (List.replicate 59 true)
  have a2 := w2 (List.replicate 60 true)
  have a3 := w2 (List.replicate 60 true ++ [false])
  have f : Seq.first 60 = some 0 := rfl
  rw [f, Seq.walk_up 60 59 0 (by omega) (by omega), if_pos (by omega)] at a1
  rw [f, Seq.walk_up 60 60 0 (by omega) (by omega), if_neg (by omega)] at a2
  rw [f, Seq.walk_append, Seq.walk_up 60 60 0 (by omega) (by omega), if_neg (by omega)] at a3
  obtain ⟨n, e, b1, b2, _, b3, _⟩ := a1
  obtain ⟨n', c1, c2⟩ := a2
  exact ⟨t, l, n, n', e, e1, hl, b1, b2, b3, c1, c2, a3⟩

example : ∃ t : Tab CmpDbg Unit, DbgWalkSpec cmpDbgEx t ∧ t.size = 40 := by
  obtain ⟨t, as, h1, _, h3⟩ := cmpDbgExAfter
  exact ⟨t, (C110_compact_debug_walk cmpDbgExOK cmpDbgExOps_valid h1).1, h3⟩

example : ∃ t : Tab GrpDbg Unit, DbgIterSpec grpDbgEx t ∧ t.size = 2 := by
  obtain ⟨t, as, h1, _, h3, _⟩ := grpDbgExAfter
  exact ⟨t, (C110_group_debug_walk grpExOK grpDbgExShort_valid h1).2.1, h3⟩

end SC
