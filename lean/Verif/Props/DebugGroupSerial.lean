import Verif.Group.DebugRelax
import Verif.Props.DebugGroup
import Verif.Props.GroupSerial
/-!
# Properties of `serialize` and `deserialize` of `group_chaining_table` in a debug build: C100, C101
-/
namespace SC

variable {g : GrpCfg} {hk : HashKind} {kw vw : Nat}

/-- The tables a program built with assertions can have: new ones, those after a call that has not failed, and those read from the bytes of
another one (into any table, whatever follows in the stream).  The finite map is what the table should contain. -/
inductive GrpDbgReach (g : GrpCfg) (hk : HashKind) (kw vw : Nat) : Tab GrpDbg Unit → FMap → Prop
  | new : GrpDbgReach g hk kw vw (Tab.new (grpDbg g hk) kw vw) FMap.empty
  | step {t t' : Tab GrpDbg Unit} {m : FMap} {op : MapOp} {a : Ans} :
      GrpDbgReach g hk kw vw t m → GrpDbgValid hk kw vw op → t.step (grpDbg g hk) op = .ok (t', a) →
      GrpDbgReach g hk kw vw t' (m.step (fun v => v % 2 ^ vw) op).1
  | reload {t t0 t' : Tab GrpDbg Unit} {m : FMap} {bytes rest rest' : List Nat} :
      GrpDbgReach g hk kw vw t m → t.size < 2 ^ 64 → (grpDbgCfg g hk).serialize t = .ok bytes →
      (grpDbgCfg g hk).deserialize hk t0 (bytes ++ rest) = .ok (t', rest') → GrpDbgReach g hk kw vw t' m

theorem GrpDbgValid.ok {sp : Bool} {e : GrpCfg} (L : Laws (grpDbgMapE (grpDbgCfg g hk) e) (grpDbgPar sp (grpDbgCfg g hk) hk kw vw))
    {op : MapOp} (h : GrpDbgValid hk kw vw op) : OpOK (grpDbgPar sp (grpDbgCfg g hk) hk kw vw) op :=
  ValidOp.opOK (vals := fun v => v < 2 ^ vw) L.hi_lt L.lo_pos (fun _ hv => fit_iff (tr := fun w v => v % 2 ^ w).mpr hv)
    (fit_iff (tr := fun w v => v % 2 ^ w).mpr (Nat.two_pow_pos _)) h (.inr rfl)

theorem GrpOK.dbgHash (h : GrpOK hk kw vw) : hk.dbgNew kw = .ok () := by
  have := (h.dbgPar (g := ⟨true, fun _ => false, true⟩)).2.2
  unfold grpDbgNew at this
  obtain ⟨_, h1, _⟩ := bind_eq_ok this
  exact h1

/-- the table with an `eraseAt` that may read behind the end of an array -/
abbrev grpDbgFlat (g : GrpCfg) (hk : HashKind) : Cfg GrpDbg Unit := grpDbgMapE (grpDbgCfg g hk) (grpDbgCfg g hk).g.flat

theorem GrpOK.dbgFlat (h : GrpOK hk kw vw) :
    Laws (grpDbgFlat g hk) (grpDbgPar false (grpDbgCfg g hk) hk kw vw) ∧ hk.grow kw 255 64 < 65 :=
  ⟨(h.dbgParE (by simp)).1, (h.dbgPar (g := g)).2.1⟩

theorem GrpDbgReach.sem (h : GrpOK hk kw vw) {t : Tab GrpDbg Unit} {m : FMap} (ht : GrpDbgReach g hk kw vw t m) :
    Sem (grpDbgFlat g hk) (grpDbgPar false (grpDbgCfg g hk) hk kw vw) t m := by
  obtain ⟨L, hg⟩ := h.dbgFlat (g := g)
  induction ht with
  | new =>
    have h0 : Tab.new (grpDbg g hk) kw vw = Tab.new (grpDbgFlat g hk) kw vw := (new_withErase _ _).symm
    rw [h0]
    obtain ⟨t', l, h1, h2, h3⟩ := Tab.run_new L hg [] (by simp)
    have h1 := congrArg Prod.fst (Except.ok.inj h1)
    simp only at h1
    subst h1
    exact ⟨l, h2, h3⟩
  | @step t t' m op a _ hop hs ih =>
    obtain ⟨t'', h1, h2⟩ := ih.step L hg op (hop.ok L)
    have h3 : t.step (grpDbgFlat g hk) op = .ok (t', a) := step_relax dbgEraseAt_relax t hs
    rw [h3] at h1
    cases h1
    have e := (FMap.run_congr (f := fitNorm (fun w v => v % 2 ^ w) vw) (g := fun v => v % 2 ^ vw) (fit_eq (Nat.two_pow_pos _))
      (fun v hv => fit_eq hv) [op] m (by intro o ho; rw [List.mem_singleton.mp ho]; exact hop)).2
    have e : (m.step (fitNorm (fun w v => v % 2 ^ w) vw) op).1 = (m.step (fun v => v % 2 ^ vw) op).1 := e
    rw [← e]
    exact h2
  | @reload t t0 t' m bytes rest rest' _ hsz hb hd ih =>
    obtain ⟨l, hi, ha⟩ := ih
    obtain ⟨bytes', e1, e2⟩ := grpDbgSerialize_ok h.dbgStore h.dbgHash L (Inv_withErase.mp hi) hsz
    rw [hb] at e1
    cases e1
    obtain ⟨t'', f1, f2, _⟩ := e2 t0 rest
    rw [hd] at f1
    cases f1
    exact ⟨l, Inv_withErase.mpr f2, ha⟩

theorem GrpDbgReach.run {t t' : Tab GrpDbg Unit} {m : FMap} (ht : GrpDbgReach g hk kw vw t m) :
    ∀ {ops : List MapOp} {as : List Ans}, (∀ op ∈ ops, GrpDbgValid hk kw vw op) → Tab.run (grpDbg g hk) t ops = .ok (t', as) →
    GrpDbgReach g hk kw vw t' (m.after (fun v => v % 2 ^ vw) ops) := by
  intro ops
  induction ops generalizing t m with
  | nil => intro as _ h; cases h; exact ht
  | cons op ops ih =>
    intro as hops h
    rw [Tab.run] at h
    obtain ⟨r, h1, h2⟩ := bind_eq_ok h
    obtain ⟨r2, h3, h4⟩ := bind_eq_ok h2
    cases h4
    exact ih (ht.step (hops op (by simp)) h1) (fun op hop => hops op (by simp [hop])) h3

/-! ## C100 -/

/-- **C100**: in a debug build no assertion fails in `serialize`, and none in `deserialize` of these bytes, whatever table they are read into
and whatever follows in the stream; the table read equals the table written in contents, size, group size and widths, and in the number of
buckets if there are entries; exactly the bytes written are consumed; from then on the table behaves like the finite map that was written,
where erasures are included if reads behind the end of an array are not faults (see C58). -/
theorem C100_group_debug_serialize (h : GrpOK hk kw vw) {t : Tab GrpDbg Unit} {m : FMap} (ht : GrpDbgReach g hk kw vw t m)
    (hsz : t.size < 2 ^ 64) :
    ∃ bytes, (grpDbgCfg g hk).serialize t = .ok bytes ∧ ∀ t0 rest, ∃ t',
      (grpDbgCfg g hk).deserialize hk t0 (bytes ++ rest) = .ok (t', rest) ∧
      SameContents (grpDbg g hk) kw t t' ∧ (t.size ≠ 0 → t'.bucketCount = t.bucketCount) ∧ t'.bpg = t.bpg ∧
      (∀ k < 2 ^ kw, t'.lookup (grpDbg g hk) k = .ok ((m.get k).map (fun v => (k, v)))) ∧
      ∀ ops : List MapOp, (∀ op ∈ ops, GrpDbgValid hk kw vw op) → g.strict = false ∨ (∀ op ∈ ops, op.keeps = true) →
        ∃ t'', Tab.run (grpDbg g hk) t' ops = .ok (t'', m.run (fun v => v % 2 ^ vw) ops) := by
  obtain ⟨L, hg⟩ := h.dbgFlat (g := g)
  have hs := ht.sem h
  obtain ⟨l, hi, ha⟩ := id hs
  obtain ⟨bytes, g1, g2⟩ := grpDbgSerialize_ok h.dbgStore h.dbgHash L (Inv_withErase.mp hi) hsz
  refine ⟨bytes, g1, fun t0 rest => ?_⟩
  obtain ⟨t', f1, f2, f3, f4⟩ := g2 t0 rest
  have f2 := (Inv_withErase (f := ((grpDbgCfg g hk).withG (grpDbgCfg g hk).g.flat).ops.eraseAt)).mpr f2
  have hs' : Sem (grpDbgFlat g hk) (grpDbgPar false (grpDbgCfg g hk) hk kw vw) t' m := ⟨l, f2, ha⟩
  have hlk : ∀ k < 2 ^ kw, t'.lookup (grpDbg g hk) k = .ok ((m.get k).map (fun v => (k, v))) := by
    intro k hk'
    have := hs'.lookup L hk'
    rw [lookup_withErase] at this
    exact this
  refine ⟨t', f1, ⟨?_, ?_, ?_, ?_⟩, fun h0 => by unfold Tab.bucketCount; rw [f4 h0], f3, hlk, ?_⟩
  · rw [hs'.widths.1, hs.widths.1]
  · rw [hs'.widths.2, hs.widths.2]
  · rw [hs'.size, hs.size]
  · intro k hk'
    have := hs.lookup L hk'
    rw [lookup_withErase] at this
    rw [hlk k hk']
    exact this.symm
  · intro ops hops hor
    obtain ⟨t'', _, h6, _⟩ := Tab.run_ok L hg ops f2 ha (fun op hop => (hops op hop).ok L)
    have e := (FMap.run_congr (f := fitNorm (fun w v => v % 2 ^ w) vw) (g := fun v => v % 2 ^ vw) (fit_eq (Nat.two_pow_pos _))
      (fun v hv => fit_eq hv) ops m hops).1
    refine ⟨t'', ?_⟩
    rw [← e]
    rcases hor with hst | hks
    · have hst : (grpDbgCfg g hk).g.strict = false := hst
      rw [grpDbgFlat, grpDbgMapE_self hst] at h6
      exact h6
    · rw [run_withErase ops hks] at h6
      exact h6

/-- the example table meets the hypotheses -/
example : ∃ t m, GrpDbgReach grpEx (.xorshift 64) 11 13 t m ∧ t.size = 2 ∧ t.size < 2 ^ 64 := by
  obtain ⟨t, as, ht, _, h2, _⟩ := grpDbgExAfter
  exact ⟨t, _, GrpDbgReach.new.run grpDbgExShort_valid ht, h2, by omega⟩

/-- a table read from its bytes, into a table with other widths -/
example : ∃ bytes t', (grpDbgCfg grpEx (.xorshift 64)).deserialize (.xorshift 64) (Tab.new grpDbgEx 5 5) (bytes ++ [1, 2, 3]) =
    .ok (t', [1, 2, 3]) ∧ t'.size = 2 ∧ t'.bucketCount = 16 ∧ t'.bpg = 64 := by
  obtain ⟨t, as, ht, h1, h2, h3⟩ := grpDbgExAfter
  obtain ⟨bytes, _, g2⟩ := C100_group_debug_serialize grpExOK (GrpDbgReach.new.run grpDbgExShort_valid ht) (by omega)
  obtain ⟨t', e1, e2, e3, e4, _⟩ := g2 (Tab.new grpDbgEx 5 5) [1, 2, 3]
  exact ⟨bytes, t', e1, by rw [← h2]; exact e2.2.2.1, by rw [e3 (by omega), h1], by rw [e4, h3]⟩

end SC
