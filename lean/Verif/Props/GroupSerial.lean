import Verif.Group.Relax
import Verif.Props.Group
/-!
# Properties of `serialize` and `deserialize` of `group_chaining_table`: C45, C58
-/
namespace SC

variable {c : GrpCfg} {hk : HashKind} {kw vw : Nat}

/-- The tables a program can have: new ones, those after a call that has not failed, and those read from the bytes of another one
(into any table, whatever follows in the stream).  The finite map is what the table should contain. -/
inductive GrpReach (c : GrpCfg) (hk : HashKind) (kw vw : Nat) : Tab GrpStore Unit → FMap → Prop
  | new : GrpReach c hk kw vw (Tab.new (grpMap c hk) kw vw) FMap.empty
  | step {t t' : Tab GrpStore Unit} {m : FMap} {op : MapOp} {a : Ans} :
      GrpReach c hk kw vw t m → GrpValid hk kw op → t.step (grpMap c hk) op = .ok (t', a) →
      GrpReach c hk kw vw t' (m.step (fun v => v % 2 ^ vw) op).1
  | reload {t t0 t' : Tab GrpStore Unit} {m : FMap} {bytes rest rest' : List Nat} :
      GrpReach c hk kw vw t m → t.size < 2 ^ 64 → grpSerialize c hk t = .ok bytes →
      grpDeserialize c hk t0 (bytes ++ rest) = .ok (t', rest') → GrpReach c hk kw vw t' m

theorem GrpReach.sem (h : GrpOK hk kw vw) {t : Tab GrpStore Unit} {m : FMap} (ht : GrpReach c hk kw vw t m) :
    Sem (grpMapE c c.flat hk) (grpPar false hk kw vw) t m := by
  have hC := h.coveredE (c := c) (e := c.flat) (sp := false) (by simp)
  induction ht with
  | new =>
    have h1 : Tab.new (grpMap c hk) kw vw = Tab.new (grpMapE c c.flat hk) kw vw := (new_withErase _ _).symm
    rw [h1]
    exact hC.sem (ops := []) (by simp) ⟨_, rfl⟩
  | @step t t' m op a _ hop hs ih =>
    obtain ⟨t'', h1, h2⟩ := ih.step hC.laws hC.grow65 op (hC.opOK hop)
    have h3 : t.step (grpMapE c c.flat hk) op = .ok (t', a) := step_relax eraseAt_relax t hs
    rw [h3] at h1
    cases h1
    exact h2
  | @reload t t0 t' m bytes rest rest' _ hsz hb hd ih =>
    obtain ⟨l, hi, ha⟩ := ih
    obtain ⟨bytes', e1, e2⟩ := grpSerialize_ok hC.laws (Inv_withErase.mp hi) hsz
    rw [hb] at e1
    cases e1
    obtain ⟨t'', f1, f2, _⟩ := e2 t0 rest
    rw [hd] at f1
    cases f1
    exact ⟨l, Inv_withErase.mpr f2, ha⟩

theorem GrpReach.run {t t' : Tab GrpStore Unit} {m : FMap} (ht : GrpReach c hk kw vw t m) :
    ∀ {ops : List MapOp} {as : List Ans}, (∀ op ∈ ops, GrpValid hk kw op) → Tab.run (grpMap c hk) t ops = .ok (t', as) →
    GrpReach c hk kw vw t' (m.after (fun v => v % 2 ^ vw) ops) := by
  intro ops
  induction ops generalizing t m with
  | nil => intro as _ h; cases h; exact ht
  | cons op ops ih =>
    intro as hops h
    rw [Tab.run] at h
    obtain ⟨r, h1, h2⟩ := bind_eq_ok h
    obtain ⟨r2, h3, h4⟩ := bind_eq_ok h2
    cases h4
    exact ih (ht.step (hops op (by simp)) h1) (fun op hop => hops op (by simp [hop])) h3

/-! ## C45 -/

/-- **C45**: whatever table `t0` the bytes are read into and whatever follows in the stream, the table read equals the table written in
contents, size, group size and widths, and in the number of buckets if there are entries; exactly the bytes written are consumed; the
table behaves like the finite map that was written from then on, where erasures are included if reads behind the end of an array are
not faults (see C58). -/
theorem C45_group_serialize (h : GrpOK hk kw vw) {t : Tab GrpStore Unit} {m : FMap} (ht : GrpReach c hk kw vw t m)
    (hsz : t.size < 2 ^ 64) :
    ∃ bytes, grpSerialize c hk t = .ok bytes ∧ ∀ t0 rest, ∃ t', grpDeserialize c hk t0 (bytes ++ rest) = .ok (t', rest) ∧
      SameContents (grpMap c hk) kw t t' ∧ (t.size ≠ 0 → t'.bucketCount = t.bucketCount) ∧ t'.bpg = t.bpg ∧
      (∀ k < 2 ^ kw, t'.lookup (grpMap c hk) k = .ok ((m.get k).map (fun v => (k, v)))) ∧
      ∀ ops : List MapOp, (∀ op ∈ ops, GrpValid hk kw op) → c.strict = false ∨ (∀ op ∈ ops, op.keeps = true) →
        ∃ t'', Tab.run (grpMap c hk) t' ops = .ok (t'', m.run (fun v => v % 2 ^ vw) ops) := by
  have hC := h.coveredE (c := c) (e := c.flat) (sp := false) (by simp)
  have hs := ht.sem h
  obtain ⟨l, hi, ha⟩ := id hs
  obtain ⟨bytes, g1, g2⟩ := grpSerialize_ok hC.laws (Inv_withErase.mp hi) hsz
  refine ⟨bytes, g1, fun t0 rest => ?_⟩
  obtain ⟨t', f1, f2, f3, f4⟩ := g2 t0 rest
  have f2 := (Inv_withErase (f := (grpOps c.flat).eraseAt)).mpr f2
  have hs' : Sem (grpMapE c c.flat hk) (grpPar false hk kw vw) t' m := ⟨l, f2, ha⟩
  have hlk : ∀ k < 2 ^ kw, t'.lookup (grpMap c hk) k = .ok ((m.get k).map (fun v => (k, v))) := by
    intro k hk'
    have := hs'.lookup hC.laws hk'
    rw [grpMapE, lookup_withErase] at this
    exact this
  refine ⟨t', f1, ⟨?_, ?_, ?_, ?_⟩, fun h0 => by unfold Tab.bucketCount; rw [f4 h0], f3, hlk, ?_⟩
  · rw [hs'.widths.1, hs.widths.1]
  · rw [hs'.widths.2, hs.widths.2]
  · rw [hs'.size, hs.size]
  · intro k hk'
    have := hs.lookup hC.laws hk'
    rw [grpMapE, lookup_withErase] at this
    rw [hlk k hk']
    exact this.symm
  · intro ops hops hor
    obtain ⟨t'', _, h6, _⟩ := Tab.run_ok hC.laws hC.grow65 ops f2 ha (fun op hop => hC.opOK (hops op hop))
    refine ⟨t'', ?_⟩
    rcases hor with hst | hks
    · rw [grpMapE_self hst] at h6
      exact h6
    · rw [grpMapE, run_withErase ops hks] at h6
      exact h6

/-- the example table of `Verif.Props.Group` meets the hypotheses -/
example : ∃ t m, GrpReach grpEx (.xorshift 64) 11 13 t m ∧ t.size = 40 ∧ t.size < 2 ^ 64 := by
  obtain ⟨t, ⟨as, ht⟩, _, h2, _⟩ := grpExAfter
  exact ⟨t, _, GrpReach.new.run grpExOps_valid ht, h2, by omega⟩

/-- a table read from these bytes can be read and written again, with strict checks -/
example : ∃ bytes t', grpDeserialize grpEx (.xorshift 64) (Tab.new (grpMap grpEx (.xorshift 64)) 5 5) (bytes ++ [1, 2, 3]) = .ok (t', [1, 2, 3]) ∧
    t'.size = 40 ∧ t'.bucketCount = 32 ∧ t'.bpg = 64 := by
  obtain ⟨t, ⟨as, ht⟩, h1, h2, h3⟩ := grpExAfter
  obtain ⟨bytes, _, g2⟩ := C45_group_serialize grpExOK (GrpReach.new.run grpExOps_valid ht) (by omega)
  obtain ⟨t', e1, e2, e3, e4, _⟩ := g2 (Tab.new (grpMap grpEx (.xorshift 64)) 5 5) [1, 2, 3]
  exact ⟨bytes, t', e1, by rw [← h2]; exact e2.2.2.1, by rw [e3 (by omega), h1], by rw [e4, h3]⟩

/-! ## C58 -/

/-- **C58** is false: in a table read from a stream, erasing reads behind the end of an array.  The table of the witness has one pair; its
value has 64 bits, so that the array of values has exactly one word. -/
theorem C58_erase_after_deserialize_false :
    ¬ ∀ (t : Tab GrpStore Unit) (m : FMap), GrpReach grpEx (.xorshift 64) 11 64 t m → ∀ k < 2 ^ 11,
      ∃ r, t.erase (grpMap grpEx (.xorshift 64)) k = .ok r := by
  intro hall
  have hv : ∀ op ∈ [MapOp.insert 5 6], GrpValid (.xorshift 64) 11 op := by decide +kernel
  have h : (match Tab.run (grpMap grpEx (.xorshift 64)) (Tab.new (grpMap grpEx (.xorshift 64)) 11 64) [.insert 5 6] with
    | .ok (t, _) => t.size == 1 && (match grpSerialize grpEx (.xorshift 64) t with
      | .ok bytes => (match grpDeserialize grpEx (.xorshift 64) (Tab.new (grpMap grpEx (.xorshift 64)) 11 64) (bytes ++ []) with
        | .ok (t', _) => (match t'.erase (grpMap grpEx (.xorshift 64)) 5 with | .error .oob => true | _ => false)
        | .error _ => false)
      | .error _ => false)
    | .error _ => false) = true := by decide +kernel
  cases h1 : Tab.run (grpMap grpEx (.xorshift 64)) (Tab.new (grpMap grpEx (.xorshift 64)) 11 64) [.insert 5 6] with
  | error e => rw [h1] at h; cases h
  | ok r =>
    rw [h1] at h
    simp only [Bool.and_eq_true, beq_iff_eq] at h
    obtain ⟨hs1, h⟩ := h
    cases h2 : grpSerialize grpEx (.xorshift 64) r.1 with
    | error e => rw [h2] at h; cases h
    | ok bytes =>
      rw [h2] at h
      simp only at h
      cases h3 : grpDeserialize grpEx (.xorshift 64) (Tab.new (grpMap grpEx (.xorshift 64)) 11 64) (bytes ++ []) with
      | error e => rw [h3] at h; cases h
      | ok r2 =>
        rw [h3] at h
        simp only at h
        obtain ⟨r3, hr⟩ := hall r2.1 _ (.reload (GrpReach.new.run hv h1) (by omega) h2 h3) 5 (by omega)
        rw [hr] at h
        cases h

/-- The part of **C58** that holds: if the words read behind the end of an array are only unspecified, every erasure in a reachable table
removes exactly the key; and without erasures, no call on a reachable table accesses anything outside of its arrays.  Missing: the
erasures of `C58_erase_after_deserialize_false`. -/
theorem C58_erase_after_deserialize_partial (h : GrpOK hk kw vw) {t : Tab GrpStore Unit} {m : FMap} (ht : GrpReach c hk kw vw t m) :
    (c.strict = false → ∀ k < 2 ^ kw, EraseSpec (grpMap c hk) kw t k) ∧
    ∀ ops : List MapOp, (∀ op ∈ ops, GrpValid hk kw op) → (∀ op ∈ ops, op.keeps = true) →
        ∃ t', Tab.run (grpMap c hk) t ops = .ok (t', m.run (fun v => v % 2 ^ vw) ops) := by
  have hC := h.coveredE (c := c) (e := c.flat) (sp := false) (by simp)
  have hs := ht.sem h
  constructor
  · intro hst k hk'
    rw [grpMapE_self hst] at hC hs
    exact (hC.observed hs).erase k hk'
  · intro ops hops hks
    obtain ⟨l, hi, ha⟩ := hs
    obtain ⟨t', _, h6, _⟩ := Tab.run_ok hC.laws hC.grow65 ops hi ha (fun op hop => hC.opOK (hops op hop))
    rw [grpMapE, run_withErase ops hks] at h6
    exact ⟨t', h6⟩

end SC
