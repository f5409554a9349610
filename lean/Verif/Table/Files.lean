import Verif.Spec.Files
import Verif.Table.Several
/-!
# Programs with several tables and files
-/
namespace SC
variable {S : Type}

/-- objects, and the bytes of each stream that have not been read -/
structure TWorld (S : Type) where
  objs : TObjs S
  files : Nat → List Nat

/-- `serialize` and `deserialize` of a class -/
structure Filer (S : Type) where
  ser : Tab S Unit → Res (List Nat)
  des : Tab S Unit → List Nat → Res (Tab S Unit × List Nat)

/-- One statement.  `serialize` (sep:790-808, grp:1420-1446) uses `m_hash` for the width of the quotients, like the functions of `TObj.call`.
`deserialize` (sep:809-850, grp:1449-1509) reads the key width and replaces `m_hash` (sep:815, grp:1455). -/
def TWorld.cmd (g : Cfg S Unit) (F : Filer S) (viaSwap : Bool) (w : TWorld S) : FCmd → Res (TWorld S × List Ans)
  | .tab c => do
    let (o, a) ← w.objs.cmd g viaSwap c
    return ({ w with objs := o }, a)
  | .write i f => match w.objs i with
    | none => .error .null
    | some x => if x.hash = x.tab.kw then do
        let bytes ← F.ser x.tab
        return ({ w with files := fun k => if k = f then w.files k ++ bytes else w.files k }, [])
      else .error .undef
  | .read i f => match w.objs i with
    | none => .error .null
    | some x => do
      let (t, rest) ← F.des x.tab (w.files f)
      return ({ objs := w.objs.set i (some ⟨t, t.kw⟩), files := fun k => if k = f then rest else w.files k }, [])

/-- a program -/
def TWorld.run (g : Cfg S Unit) (F : Filer S) (viaSwap : Bool) (w : TWorld S) : List FCmd → Res (TWorld S × List Ans)
  | [] => .ok (w, [])
  | c :: prog => do
    let (w, a) ← w.cmd g F viaSwap c
    let (w, as) ← TWorld.run g F viaSwap w prog
    return (w, a ++ as)

/-- no objects, empty streams -/
def TWorld.empty : TWorld S := { objs := fun _ => none, files := fun _ => [] }

/-! ## Correctness -/

/-- what is written can be read into any table, whatever follows in the stream -/
def Filed (F : Filer S) (widths : Nat → Nat → Prop) (R : Nat → Nat → Tab S Unit → FMap → Prop) : Prop :=
  ∀ kw vw t m, widths kw vw → R kw vw t m → m.size < 2 ^ 64 →
    ∃ bytes, F.ser t = .ok bytes ∧ ∀ t0 rest, ∃ t', F.des t0 (bytes ++ rest) = .ok (t', rest) ∧ R kw vw t' m

/-- the bytes are those of these tables, one after the other -/
inductive Queue (F : Filer S) (widths : Nat → Nat → Prop) (R : Nat → Nat → Tab S Unit → FMap → Prop) : List Nat → List (Nat × Nat × FMap) → Prop
  | nil : Queue F widths R [] []
  | cons {kw vw : Nat} {m : FMap} {bytes rest : List Nat} {q : List (Nat × Nat × FMap)} : widths kw vw →
      (∀ t0 rest, ∃ t', F.des t0 (bytes ++ rest) = .ok (t', rest) ∧ R kw vw t' m) → Queue F widths R rest q →
      Queue F widths R (bytes ++ rest) ((kw, vw, m) :: q)

variable {g : Cfg S Unit} {F : Filer S} {tr : Nat → Nat → Nat} {widths : Nat → Nat → Prop} {args : Nat → MapOp → Prop}
  {R : Nat → Nat → Tab S Unit → FMap → Prop} {viaSwap : Bool}

theorem Queue.snoc {xs : List Nat} {q : List (Nat × Nat × FMap)} (h : Queue F widths R xs q) {kw vw : Nat} {m : FMap} {bytes : List Nat} (hw : widths kw vw)
    (hb : ∀ t0 rest, ∃ t', F.des t0 (bytes ++ rest) = .ok (t', rest) ∧ R kw vw t' m) : Queue F widths R (xs ++ bytes) (q ++ [(kw, vw, m)]) := by
  induction h with
  | nil =>
    have := Queue.cons hw hb (Queue.nil (F := F) (widths := widths) (R := R))
    simpa using this
  | cons h1 h2 _ ih =>
    rw [List.append_assoc]
    exact .cons h1 h2 ih

theorem Queue.done {xs : List Nat} (h : Queue F widths R xs []) : xs = [] := by cases h; rfl

/-- the objects and streams hold the tables -/
structure WorldHolds (F : Filer S) (widths : Nat → Nat → Prop) (R : Nat → Nat → Tab S Unit → FMap → Prop) (w : TWorld S) (d : Disk) : Prop where
  tabs : AllHold widths R w.objs d.tabs
  made : ∀ i, d.made i = (w.objs i).isSome
  files : ∀ f, Queue F widths R (w.files f) (d.files f)

/-- which objects exist after a statement -/
theorem TObjs.cmd_made {o o' : TObjs S} {c : TCmd} {a : List Ans} (h : o.cmd g viaSwap c = .ok (o', a)) {made : Nat → Bool}
    (hm : ∀ i, made i = (o i).isSome) : ∀ k, madeAfter made c k = (o' k).isSome := by
  intro k
  cases c with
  | create i kw vw =>
    cases h
    simp only [madeAfter, TObjs.set, hm]
    by_cases e : k = i <;> simp [e]
  | call i op =>
    simp only [TObjs.cmd] at h
    cases ei : o i with
    | none => rw [ei] at h; cases h
    | some x =>
      rw [ei] at h
      simp only at h
      obtain ⟨r, h1, h2⟩ := bind_eq_ok h
      cases h2
      simp only [madeAfter, TObjs.set, hm]
      by_cases e : k = i
      · simp [e, ei]
      · simp [e]
  | swap i j =>
    simp only [TObjs.cmd] at h
    cases ei : o i <;> cases ej : o j <;> simp only [ei, ej] at h <;> cases h <;> simp only [madeAfter, TObjs.set, hm, ei, ej] <;>
      by_cases e1 : k = j <;> by_cases e2 : k = i <;> simp_all
  | moveAssign i j =>
    simp only [TObjs.cmd] at h
    cases ei : o i <;> cases ej : o j <;> simp only [ei, ej] at h
    · cases h; simp only [madeAfter, TObjs.set, hm, ei, ej]; by_cases e1 : k = j <;> by_cases e2 : k = i <;> simp_all
    · cases h; simp only [madeAfter, TObjs.set, hm, ei, ej]; by_cases e1 : k = j <;> by_cases e2 : k = i <;> simp_all
    · cases h; simp only [madeAfter, TObjs.set, hm, ei, ej]; by_cases e1 : k = j <;> by_cases e2 : k = i <;> simp_all
    · split at h
      · cases h; simp only [madeAfter, TObjs.set, hm, ei, ej]; by_cases e2 : k = i <;> simp_all
      · cases h; simp only [madeAfter, TObjs.set, hm, ei, ej]; by_cases e1 : k = j <;> by_cases e2 : k = i <;> simp_all
  | moveConstruct i j =>
    simp only [TObjs.cmd] at h
    cases ej : o j <;> simp only [ej] at h <;> cases h <;> simp only [madeAfter, TObjs.set, hm, ej] <;>
      by_cases e1 : k = j <;> by_cases e2 : k = i <;> simp_all

theorem TWorld.cmd_ok (C : Classy g tr widths args R) (D : Filed F widths R) {w : TWorld S} {d : Disk} (h : WorldHolds F widths R w d) (c : FCmd)
    (hv : d.Valid tr widths args [c]) :
    ∃ w', w.cmd g F viaSwap c = .ok (w', (d.cmd tr c).2) ∧ WorldHolds F widths R w' (d.cmd tr c).1 := by
  have hv := hv.1
  cases c with
  | tab c =>
    obtain ⟨o', h1, h2⟩ := TObjs.cmd_ok (viaSwap := viaSwap) C h.tabs c (by cases c <;> exact hv)
    exact ⟨{ w with objs := o' }, by simp only [TWorld.cmd, h1, ok_bind, pure_eq_ok, Disk.cmd], h2, TObjs.cmd_made h1 h.made, h.files⟩
  | write i f =>
    obtain ⟨kw, vw, m, e, hsz⟩ := hv
    obtain ⟨hw, x, h1, h2, h3⟩ := h.tabs i kw vw m e
    obtain ⟨bytes, b1, b2⟩ := D kw vw x.tab m hw h3 hsz
    have hk := C.kw kw vw _ _ hw h3
    refine ⟨{ w with files := fun k => if k = f then w.files k ++ bytes else w.files k }, ?_, ?_⟩
    · simp only [TWorld.cmd, h1, h2, hk, if_true, b1, ok_bind, pure_eq_ok, Disk.cmd, e]
    · simp only [Disk.cmd, e]
      refine ⟨h.tabs, h.made, fun k => ?_⟩
      have hq := h.files k
      by_cases ek : k = f
      · simp only [if_pos ek]
        exact hq.snoc hw b2
      · simp only [if_neg ek]
        exact hq
  | read i f =>
    obtain ⟨hm, hne⟩ := hv
    obtain ⟨x, hx⟩ := Option.isSome_iff_exists.mp ((h.made i).symm.trans hm)
    have hq := h.files f
    cases hf : d.files f with
    | nil => exact absurd hf hne
    | cons y q =>
      rw [hf] at hq
      generalize hb : w.files f = bs at hq
      cases hq with
      | @cons kw vw m bytes rest q hw hd hr =>
        obtain ⟨t', f1, f2⟩ := hd x.tab rest
        refine ⟨{ objs := w.objs.set i (some ⟨t', t'.kw⟩), files := fun k => if k = f then rest else w.files k }, ?_, ?_⟩
        · simp only [TWorld.cmd, hx, hb, f1, ok_bind, pure_eq_ok, Disk.cmd, hf]
        · simp only [Disk.cmd, hf]
          refine ⟨h.tabs.set ?_, fun k => ?_, fun k => ?_⟩
          · intro kw' vw' m' e
            cases e
            exact ⟨hw, _, rfl, C.kw _ _ _ _ hw f2, f2⟩
          · simp only [TObjs.set]
            by_cases ek : k = i
            · simp only [if_pos ek, Option.isSome_some]
              rw [ek, hm]
            · simp only [if_neg ek]
              exact h.made k
          · by_cases ek : k = f
            · simp only [if_pos ek]
              exact hr
            · simp only [if_neg ek]
              exact h.files k

/-- every program answers like tables with values of their own and queues of such tables -/
theorem TWorld.run_ok (C : Classy g tr widths args R) (D : Filed F widths R) : ∀ (prog : List FCmd) {w : TWorld S} {d : Disk}, WorldHolds F widths R w d →
    d.Valid tr widths args prog → ∃ w', w.run g F viaSwap prog = .ok (w', d.run tr prog) ∧ WorldHolds F widths R w' (d.after tr prog) := by
  intro prog
  induction prog with
  | nil => intro w d h _; exact ⟨w, rfl, h⟩
  | cons c prog ih =>
    intro w d h hv
    obtain ⟨w1, h1, h2⟩ := TWorld.cmd_ok (viaSwap := viaSwap) C D h c ⟨hv.1, trivial⟩
    obtain ⟨w2, h3, h4⟩ := ih h2 hv.2
    exact ⟨w2, by simp only [TWorld.run, h1, ok_bind, h3, pure_eq_ok, Disk.run], h4⟩

theorem WorldHolds.empty : WorldHolds F widths R TWorld.empty Disk.empty :=
  ⟨fun i kw vw m e => (by cases e), fun _ => rfl, fun _ => .nil⟩

end SC
