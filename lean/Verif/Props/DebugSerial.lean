import Verif.Sep.DebugSerial
import Verif.Props.Debug
import Verif.Props.Serial
/-!
# Properties of `serialize` and `deserialize` of `separate_chaining_table` in a debug build: C95
-/
namespace SC

variable {KB VB : Type} {k : DbgCfg KB} {vops : BucketOps VB} {vnull : VB → Bool} {strat : Strategy} {maxBucket : Nat}
  {hk : HashKind} {kbits vbits : Nat} {tr : Nat → Nat → Nat} {W kw vw : Nat}

/-- The tables a program built with assertions can have: new ones, those after a call, and those read from the bytes of another one.
With `arbitrary_resize` the table written must have buckets (see `C95_debug_empty_not`). -/
inductive DbgReach (k : DbgCfg KB) (vops : BucketOps VB) (vnull : VB → Bool) (strat : Strategy) (maxBucket : Nat) (hk : HashKind)
    (kbits : Nat) (tr : Nat → Nat → Nat) (W kw vw : Nat) : Tab (SepDbg (DbgB KB) VB) Unit → FMap → Prop
  | new : DbgReach k vops vnull strat maxBucket hk kbits tr W kw vw (Tab.new (dbgMap k vops vnull strat maxBucket hk kbits) kw vw) FMap.empty
  | step {t t' : Tab (SepDbg (DbgB KB) VB) Unit} {m : FMap} {op : MapOp} {a : Ans} :
      DbgReach k vops vnull strat maxBucket hk kbits tr W kw vw t m → DbgValid strat hk W kw vw op →
      t.step (dbgMap k vops vnull strat maxBucket hk kbits) op = .ok (t', a) →
      DbgReach k vops vnull strat maxBucket hk kbits tr W kw vw t' (m.step (tr vw) op).1
  | reload {t t0 t' : Tab (SepDbg (DbgB KB) VB) Unit} {m : FMap} {bytes rest rest' : List Nat} :
      DbgReach k vops vnull strat maxBucket hk kbits tr W kw vw t m → t.size < 2 ^ 64 → (strat = .arbitrary → t.bucketCount ≠ 0) →
      (dbgCfg k vops vnull strat maxBucket hk kbits).serialize t = .ok bytes →
      (dbgCfg k vops vnull strat maxBucket hk kbits).deserialize hk t0 (bytes ++ rest) = .ok (t', rest') →
      DbgReach k vops vnull strat maxBucket hk kbits tr W kw vw t' m

theorem DbgValid.ok {KRep : DbgB KB → Nat → Nat → List Nat → Prop} {VRep : VB → Nat → Nat → List Nat → Prop} {tight : Bool}
    (L : SepDbgLaws (dbgCfg k vops vnull strat maxBucket hk kbits) hk vbits tr tight W kw vw KRep VRep) {op : MapOp}
    (h : DbgValid strat hk W kw vw op) :
    OpOK (sepDbgPar (dbgCfg k vops vnull strat maxBucket hk kbits) hk KRep VRep tr tight W kw vw) op := by
  refine ValidOp.opOK (vals := fun v => v < 2 ^ vw) L.laws.hi_lt L.laws.lo_pos (fun v hv => fit_iff.mpr hv)
    (fit_iff.mpr (Nat.two_pow_pos _)) h.1 ?_
  by_cases hs : strat = .arbitrary
  · exact .inl (h.2 hs)
  · exact .inr (decide_eq_true hs)

theorem DbgReach.sem {KRep : DbgB KB → Nat → Nat → List Nat → Prop} {VRep : VB → Nat → Nat → List Nat → Prop}
    (L : SepDbgLaws (dbgCfg k vops vnull strat maxBucket hk kbits) hk vbits tr false W kw vw KRep VRep)
    {t : Tab (SepDbg (DbgB KB) VB) Unit} {m : FMap} (ht : DbgReach k vops vnull strat maxBucket hk kbits tr W kw vw t m) :
    Sem (dbgMap k vops vnull strat maxBucket hk kbits)
      (sepDbgPar (dbgCfg k vops vnull strat maxBucket hk kbits) hk KRep VRep tr false W kw vw) t m := by
  induction ht with
  | new =>
    obtain ⟨t', l, h1, h2, h3⟩ := Tab.run_new L.laws L.grow [] (by simp)
    cases h1
    exact ⟨l, h2, h3⟩
  | @step t t' m op a _ hop hs ih =>
    obtain ⟨t'', h1, h2⟩ := ih.step L.laws L.grow _ (hop.ok L)
    rw [hs] at h1
    cases h1
    have e := (FMap.run_congr (f := fitNorm tr vw) (g := tr vw) (fit_eq (Nat.two_pow_pos _)) (fun v hv => fit_eq hv) [op] m
      (by intro o ho; rw [List.mem_singleton.mp ho]; exact hop.1)).2
    have e : (m.step (fitNorm tr vw) op).1 = (m.step (tr vw) op).1 := e
    rw [← e]
    exact h2
  | @reload t t0 t' m bytes rest rest' _ hsz hne hb hd ih =>
    obtain ⟨l, hi, ha⟩ := ih
    obtain ⟨bytes', e1, e2⟩ := dbgSerialize_ok L rfl hi hsz
    rw [hb] at e1
    cases e1
    obtain ⟨t'', f1, f2, _⟩ := e2 hne t0 rest
    rw [hd] at f1
    cases f1
    exact ⟨l, f2, ha⟩

theorem DbgReach.run {t t' : Tab (SepDbg (DbgB KB) VB) Unit} {m : FMap}
    (ht : DbgReach k vops vnull strat maxBucket hk kbits tr W kw vw t m) :
    ∀ {ops : List MapOp} {as : List Ans}, (∀ op ∈ ops, DbgValid strat hk W kw vw op) →
      Tab.run (dbgMap k vops vnull strat maxBucket hk kbits) t ops = .ok (t', as) →
      DbgReach k vops vnull strat maxBucket hk kbits tr W kw vw t' (m.after (tr vw) ops) := by
  intro ops
  induction ops generalizing t m with
  | nil => intro as _ h; cases h; exact ht
  | cons op ops ih =>
    intro as hops h
    rw [Tab.run] at h
    obtain ⟨⟨t1, a⟩, h1, h⟩ := bind_eq_ok h
    obtain ⟨⟨t2, bs⟩, h2, h⟩ := bind_eq_ok h
    cases h
    exact ih (ht.step (hops op (by simp)) h1) (fun op hop => hops op (by simp [hop])) h2

/-! ## C95 -/

/-- **C95**, the part that holds: in a debug build no assertion fails in `serialize`, and none in `deserialize` of these bytes, whatever table
they are read into and whatever follows in the stream; the table read has the same contents, number of buckets and widths, exactly the bytes
written are consumed, and from then on it behaves like the finite map that was written.  With `arbitrary_resize` the table must have
buckets. -/
theorem C95_debug_serialize_partial (h : SepDbgTabOK k vops vnull maxBucket hk kbits vbits tr W kw vw)
    {t : Tab (SepDbg (DbgB KB) VB) Unit} {m : FMap}
    (ht : DbgReach k vops vnull strat maxBucket hk kbits tr W kw vw t m) (hsz : t.size < 2 ^ 64) :
    ∃ bytes, (dbgCfg k vops vnull strat maxBucket hk kbits).serialize t = .ok bytes ∧
      ((strat = .arbitrary → t.bucketCount ≠ 0) → ∀ t0 rest, ∃ t',
        (dbgCfg k vops vnull strat maxBucket hk kbits).deserialize hk t0 (bytes ++ rest) = .ok (t', rest) ∧
        SameContents (dbgMap k vops vnull strat maxBucket hk kbits) kw t t' ∧ t'.bucketCount = t.bucketCount ∧
        (∀ x < 2 ^ kw, t'.lookup (dbgMap k vops vnull strat maxBucket hk kbits) x = .ok ((m.get x).map (fun v => (x, v)))) ∧
        ∀ ops : List MapOp, (∀ op ∈ ops, DbgValid strat hk W kw vw op) →
          ∃ t'', Tab.run (dbgMap k vops vnull strat maxBucket hk kbits) t' ops = .ok (t'', m.run (tr vw) ops)) := by
  obtain ⟨KRep, VRep, L⟩ := h.serial strat false
  have hs := ht.sem L
  obtain ⟨l, hi, ha⟩ := id hs
  obtain ⟨bytes, g1, g2⟩ := dbgSerialize_ok L rfl hi hsz
  refine ⟨bytes, g1, fun hne t0 rest => ?_⟩
  obtain ⟨t', f1, f2, f3⟩ := g2 hne t0 rest
  have hs' : Sem (dbgMap k vops vnull strat maxBucket hk kbits)
    (sepDbgPar (dbgCfg k vops vnull strat maxBucket hk kbits) hk KRep VRep tr false W kw vw) t' m := ⟨l, f2, ha⟩
  have hlk : ∀ x < 2 ^ kw, t'.lookup (dbgMap k vops vnull strat maxBucket hk kbits) x = .ok ((m.get x).map (fun v => (x, v))) :=
    fun x hx => hs'.lookup L.laws hx
  refine ⟨t', f1, ⟨?_, ?_, ?_, ?_⟩, by unfold Tab.bucketCount; rw [f3], hlk, ?_⟩
  · rw [hs'.widths.1, hs.widths.1]
  · rw [hs'.widths.2, hs.widths.2]
  · rw [hs'.size, hs.size]
  · intro x hx
    rw [hlk x hx, hs.lookup L.laws hx]
  · intro ops hops
    obtain ⟨t'', _, h6, _⟩ := Tab.run_ok L.laws L.grow ops f2 ha (fun op hop => (hops op hop).ok L)
    have e := (FMap.run_congr (f := fitNorm tr vw) (g := tr vw) (fit_eq (Nat.two_pow_pos _)) (fun v hv => fit_eq hv) ops m
      (fun op hop => (hops op hop).1)).1
    exact ⟨t'', by rw [← e]; exact h6⟩

/-- the example table meets the hypotheses: it has 60 pairs in 128 buckets -/
example : ∃ t m, DbgReach (dbgPlain 16 12345) (dbgOps (dbgPlain 32 678)) (fun b => b.data.isNone) .arbitrary 3 (.xorshift 16) 64
    (fun _ v => v % 2 ^ 32) 16 10 20 t m ∧ t.size = 60 ∧ t.size < 2 ^ 64 ∧ t.bucketCount ≠ 0 := by
  obtain ⟨t, as, h1, h2, h3⟩ := dbgExAfter
  exact ⟨t, _, DbgReach.new.run dbgExOps_valid h1, h3, by omega, by omega⟩

/-- with `arbitrary_resize` a debug build throws when the first buckets are allocated although the array of capacities exists -/
theorem dbg_stale_insert {t : Tab (SepDbg (DbgB KB) VB) Unit} {x v : Nat} (hkw : 2 ≤ kw) (hkw' : kw ≤ 64) (h1 : t.kw = kw) (h2 : t.tb = 0)
    (h3 : t.store.base.n = 1) : t.step (dbgMap k vops vnull .arbitrary maxBucket hk kbits) (.insert x v) = .error .exc := by
  generalize hg : dbgMap k vops vnull .arbitrary maxBucket hk kbits = g
  have h4 : g.stale t.store = true ∧ g.debug = true ∧ g.initBuckets = 16 := by
    subst hg
    exact ⟨by simp [sepDbgTable, dbgCfg, h3], rfl, rfl⟩
  obtain ⟨h4, h5, h6⟩ := h4
  have hb := reserveBits_ceilLog (n := min (t.kw - 1) g.initBuckets) (by omega) (by
    have : (64 : Nat) ≤ 2 ^ 63 := by decide
    omega)
  refine step_insert_error ?_
  unfold Tab.findOrInsert
  rw [h5, ddcheck_ok (show 1 < t.kw by omega), ok_bind, if_pos h2]
  simp only [Tab.reserveEmpty, hb, h5, ddcheck_fails (show ¬ (g.stale t.store = false) by rw [h4]; simp), ok_bind, error_bind]

/-- **C95** is false with `arbitrary_resize` for tables without buckets: the bytes of a new table are read without a failing assertion, but
the next insertion into the table read throws (size.hpp:68), whatever is inserted. -/
theorem C95_debug_empty_not (h : SepDbgTabOK k vops vnull maxBucket hk kbits vbits tr W kw vw) (t0 : Tab (SepDbg (DbgB KB) VB) Unit)
    (rest : List Nat) (x v : Nat) :
    ∃ bytes t', (dbgCfg k vops vnull .arbitrary maxBucket hk kbits).serialize
        (Tab.new (dbgMap k vops vnull .arbitrary maxBucket hk kbits) kw vw) = .ok bytes ∧
      (dbgCfg k vops vnull .arbitrary maxBucket hk kbits).deserialize hk t0 (bytes ++ rest) = .ok (t', rest) ∧
      t'.step (dbgMap k vops vnull .arbitrary maxBucket hk kbits) (.insert x v) = .error .exc := by
  obtain ⟨KRep, VRep, L⟩ := h.serial .arbitrary false
  have hkw3 : 3 ≤ kw := by have := h.hash; cases hk <;> exact this.1
  have hkw : kw ≤ 64 := L.laws.kw_le
  have hvw : vw ≤ 64 := L.laws.vw_le
  have hnew : hk.dbgNew kw = .ok () := by
    have := L.new
    unfold sepDbgNew at this
    obtain ⟨u, h1, _⟩ := bind_eq_ok this
    exact h1
  have hrem : (dbgCfg k vops vnull .arbitrary maxBucket hk kbits).remOK kw 0 = true := remOK_zero (hk := hk) rfl (by omega)
  have hr : Tab.reserve (dbgMap k vops vnull .arbitrary maxBucket hk kbits)
      { t0.clear (dbgMap k vops vnull .arbitrary maxBucket hk kbits) with kw := kw, vw := vw, bpg := 1 } (2 ^ 0) =
      .ok { t0.clear (dbgMap k vops vnull .arbitrary maxBucket hk kbits) with kw := kw, vw := vw, bpg := 1, store := ⟨{ n := 2 ^ 0, bkt := fun _ => { keys := (dbgOps k).empty, vals := vops.empty, size := 0, cap := 0 } }, fun _ => none⟩ } := by
    unfold Tab.reserve Tab.reserveWith Tab.reserveEmpty
    rw [reserveBits_pow (b := 0) (by omega)]
    simp only [ok_bind, Tab.clear, if_true]
    have e2 : (dbgMap k vops vnull .arbitrary maxBucket hk kbits).stale (dbgMap k vops vnull .arbitrary maxBucket hk kbits).noStore =
      false := by simp [sepDbgTable]
    exact ddcheck_bind e2 _
  refine ⟨toBytes 1 kw ++ toBytes 1 vw ++ toBytes 1 0 ++ toBytes 8 0 ++ [] ++ [], _, ?_,
    dbgDeser_eq (by omega) (by omega) (by omega) (Nat.two_pow_pos 64) hnew hrem hr rfl rfl rfl, ?_⟩
  · unfold SepDbgCfg.serialize
    exact ddcheck_bind hrem _
  · exact dbg_stale_insert (by omega) hkw rfl rfl rfl

example (t0 : Tab (SepDbg (DbgB PlainB) (DbgB PlainB)) Unit) :
    ∃ bytes t', (dbgCfg (dbgPlain 16 12345) (dbgOps (dbgPlain 32 678)) (fun b => b.data.isNone) .arbitrary 3 (.xorshift 16) 64).serialize
        (Tab.new dbgEx 10 20) = .ok bytes ∧
      (dbgCfg (dbgPlain 16 12345) (dbgOps (dbgPlain 32 678)) (fun b => b.data.isNone) .arbitrary 3 (.xorshift 16) 64).deserialize
        (.xorshift 16) t0 (bytes ++ []) = .ok (t', []) ∧ t'.step dbgEx (.insert 5 7) = .error .exc :=
  C95_debug_empty_not dbgExOK t0 [] 5 7

end SC
