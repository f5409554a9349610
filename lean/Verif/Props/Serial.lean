import Verif.Sep.Serial
import Verif.Props.Table
/-!
# Properties of `serialize` and `deserialize` of `separate_chaining_table`: C32, C54
-/
namespace SC

variable {KB VB : Type} {p : SepCfg KB VB} {hk : HashKind} {tr : Nat → Nat → Nat} {W kw vw : Nat}

/-- The tables a program can have: new ones, those after a call, and those read from the bytes of another one (into any
table, whatever follows in the stream).  The finite map is what the table should contain. -/
inductive SepReach (p : SepCfg KB VB) (hk : HashKind) (tr : Nat → Nat → Nat) (W kw vw : Nat) :
    Tab (SepStore KB VB) Unit → FMap → Prop
  | new : SepReach p hk tr W kw vw (Tab.new (sepMap p hk) kw vw) FMap.empty
  | step {t t' : Tab (SepStore KB VB) Unit} {m : FMap} {op : MapOp} {a : Ans} :
      SepReach p hk tr W kw vw t m → SepValid hk W kw op → t.step (sepMap p hk) op = .ok (t', a) →
      SepReach p hk tr W kw vw t' (m.step (tr vw) op).1
  | reload {t t0 t' : Tab (SepStore KB VB) Unit} {m : FMap} {bytes rest rest' : List Nat} :
      SepReach p hk tr W kw vw t m → t.size < 2 ^ 64 → p.serialize hk t = .ok bytes →
      p.deserialize hk t0 (bytes ++ rest) = .ok (t', rest') → SepReach p hk tr W kw vw t' m

theorem SepReach.sem {P : Par (SepStore KB VB) Unit} (hP : SepParOK p hk tr W kw vw false P)
    {t : Tab (SepStore KB VB) Unit} {m : FMap} (ht : SepReach p hk tr W kw vw t m) : Sem (sepMap p hk) P t m := by
  have e3 : P.norm P.vw = tr vw := by obtain ⟨_, _, rfl⟩ := hP.par; rfl
  induction ht with
  | new =>
    obtain ⟨t', l, h1, h2, h3⟩ := Tab.run_new hP.laws hP.grow65 [] (by simp)
    have e1 : P.kw = kw := by obtain ⟨_, _, rfl⟩ := hP.par; rfl
    have e2 : P.vw = vw := by obtain ⟨_, _, rfl⟩ := hP.par; rfl
    cases h1
    rw [e1, e2] at h2
    exact ⟨l, h2, h3⟩
  | step _ hop hs ih =>
    obtain ⟨t'', h1, h2⟩ := ih.step hP.laws hP.grow65 _ (hP.opOK hop)
    rw [hs] at h1
    cases h1
    rw [e3] at h2
    exact h2
  | @reload t t0 t' m bytes rest rest' _ hsz hb hd ih =>
    obtain ⟨l, hi, ha⟩ := ih
    obtain ⟨bytes', e1, e2⟩ := serialize_ok hP hi hsz
    rw [hb] at e1
    cases e1
    obtain ⟨t'', f1, f2, _⟩ := e2 t0 rest
    rw [hd] at f1
    cases f1
    exact ⟨l, f2, ha⟩

/-! ## C32 -/

/-- **C32**: whatever table `t0` the bytes are read into and whatever follows in the stream, the table read equals the table
written in contents, size, number of buckets and widths, exactly the bytes written are consumed, and from then on the table
behaves like the finite map that was written. -/
theorem C32_separate_serialize (h : SepOK p hk tr W kw vw) {t : Tab (SepStore KB VB) Unit} {m : FMap}
    (ht : SepReach p hk tr W kw vw t m) (hsz : t.size < 2 ^ 64) :
    ∃ bytes, p.serialize hk t = .ok bytes ∧ ∀ t0 rest, ∃ t', p.deserialize hk t0 (bytes ++ rest) = .ok (t', rest) ∧
      SameContents (sepMap p hk) kw t t' ∧ t'.bucketCount = t.bucketCount ∧
      (∀ k < 2 ^ kw, t'.lookup (sepMap p hk) k = .ok ((m.get k).map (fun v => (k, v)))) ∧
      ∀ ops : List MapOp, (∀ op ∈ ops, SepValid hk W kw op) →
        ∃ t'', Tab.run (sepMap p hk) t' ops = .ok (t'', m.run (tr vw) ops) := by
  obtain ⟨P, hP⟩ := h.par false
  have e1 : P.kw = kw := by obtain ⟨_, _, rfl⟩ := hP.par; rfl
  have e3 : P.norm P.vw = tr vw := by obtain ⟨_, _, rfl⟩ := hP.par; rfl
  have hs := ht.sem hP
  obtain ⟨l, hi, ha⟩ := id hs
  obtain ⟨bytes, g1, g2⟩ := serialize_ok hP hi hsz
  refine ⟨bytes, g1, fun t0 rest => ?_⟩
  obtain ⟨t', f1, f2, f3⟩ := g2 t0 rest
  have hs' : Sem (sepMap p hk) P t' m := ⟨l, f2, ha⟩
  have hlk : ∀ k < 2 ^ kw, t'.lookup (sepMap p hk) k = .ok ((m.get k).map (fun v => (k, v))) := fun k hk' =>
    hs'.lookup hP.laws (by rw [e1]; exact hk')
  refine ⟨t', f1, ⟨?_, ?_, ?_, ?_⟩, by unfold Tab.bucketCount; rw [f3], hlk, ?_⟩
  · rw [hs'.widths.1, hs.widths.1]
  · rw [hs'.widths.2, hs.widths.2]
  · rw [hs'.size, hs.size]
  · intro k hk'
    rw [hlk k hk', hs.lookup hP.laws (by rw [e1]; exact hk')]
  · intro ops hops
    obtain ⟨t'', _, h6, _⟩ := Tab.run_ok hP.laws hP.grow65 ops f2 ha (fun op hop => hP.opOK (hops op hop))
    rw [e3] at h6
    exact ⟨t'', h6⟩

theorem SepReach.run {t t' : Tab (SepStore KB VB) Unit} {m : FMap} (ht : SepReach p hk tr W kw vw t m) :
    ∀ {ops : List MapOp} {as : List Ans}, (∀ op ∈ ops, SepValid hk W kw op) → Tab.run (sepMap p hk) t ops = .ok (t', as) →
    SepReach p hk tr W kw vw t' (m.after (tr vw) ops) := by
  intro ops
  induction ops generalizing t m with
  | nil => intro as _ h; cases h; exact ht
  | cons op ops ih =>
    intro as hops h
    rw [Tab.run] at h
    cases hst : t.step (sepMap p hk) op with
    | error e => rw [hst] at h; cases h
    | ok r =>
      rw [hst] at h
      simp only [ok_bind] at h
      cases hr : Tab.run (sepMap p hk) r.1 ops with
      | error e => rw [hr] at h; cases h
      | ok r2 =>
        rw [hr] at h
        cases h
        exact ih (ht.step (hops op (by simp)) hst) (fun op hop => hops op (by simp [hop])) hr

/-- the example table of `Verif.Props.Table` meets the hypotheses -/
example : ∃ t m, SepReach exCfg (.xorshift 16) (fun _ v => v % 2 ^ 32) 16 10 20 t m ∧ t.size = 60 ∧ t.size < 2 ^ 64 := by
  obtain ⟨t, ⟨as, ht⟩, _, h2⟩ := exAfter
  exact ⟨t, _, SepReach.new.run exOps_valid ht, h2, by omega⟩

/-! ## C54 -/

/-- **C54** is false with `arbitrary_resize`: a table read from a stream has pairs but `capacity()` 0. -/
theorem C54_capacity_after_deserialize_false :
    ¬ ∀ (t : Tab (SepStore PlainB PlainB) Unit) (m : FMap), SepReach exCfg (.xorshift 16) (fun _ v => v % 2 ^ 32) 16 10 20 t m →
      ∃ n, exCfg.capacity t = .ok n ∧ t.size ≤ n := by
  intro hall
  have hv : ∀ op ∈ [MapOp.insert 5 6], SepValid (.xorshift 16) 16 10 op := by decide +kernel
  have h : (match Tab.run (sepMap exCfg (.xorshift 16)) (Tab.new (sepMap exCfg (.xorshift 16)) 10 20) [.insert 5 6] with
    | .ok (t, _) => t.size == 1 && (match exCfg.serialize (.xorshift 16) t with
      | .ok bytes => (match exCfg.deserialize (.xorshift 16) (Tab.new (sepMap exCfg (.xorshift 16)) 10 20) (bytes ++ []) with
        | .ok (t', _) => t'.size == 1 && (match exCfg.capacity t' with | .ok 0 => true | _ => false)
        | .error _ => false)
      | .error _ => false)
    | .error _ => false) = true := by decide +kernel
  cases h1 : Tab.run (sepMap exCfg (.xorshift 16)) (Tab.new (sepMap exCfg (.xorshift 16)) 10 20) [.insert 5 6] with
  | error e => rw [h1] at h; cases h
  | ok r =>
    rw [h1] at h
    simp only [Bool.and_eq_true, beq_iff_eq] at h
    obtain ⟨hs1, h⟩ := h
    cases h2 : exCfg.serialize (.xorshift 16) r.1 with
    | error e => rw [h2] at h; cases h
    | ok bytes =>
      rw [h2] at h
      simp only at h
      cases h3 : exCfg.deserialize (.xorshift 16) (Tab.new (sepMap exCfg (.xorshift 16)) 10 20) (bytes ++ []) with
      | error e => rw [h3] at h; cases h
      | ok r2 =>
        rw [h3] at h
        simp only [Bool.and_eq_true, beq_iff_eq] at h
        obtain ⟨hs2, h⟩ := h
        obtain ⟨n, hn, hle⟩ := hall r2.1 _ (.reload (SepReach.new.run hv h1) (by omega) h2 h3)
        rw [hn] at h
        cases n with
        | zero => omega
        | succ n => cases h

/-- **C54** holds with `incremental_resize`, where `capacity()` is `size()`, and with both strategies as long as no table is
read from a stream (C27). -/
theorem C54_capacity_after_deserialize_partial (h : SepOK p hk tr W kw vw) (hst : p.strat = .incremental)
    {t : Tab (SepStore KB VB) Unit} {m : FMap} (ht : SepReach p hk tr W kw vw t m) : p.capacity t = .ok t.size := by
  obtain ⟨P, hP⟩ := h.par false
  exact fact_capacity_incremental hP (ht.sem hP) hst

end SC
