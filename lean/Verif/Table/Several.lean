import Verif.Spec.Tables
import Verif.Table.Observe
/-!
# Programs with several tables

Contents only; who owns the memory is modelled in `Verif.Own`.
-/
namespace SC
variable {S : Type}

/-- A table as an object: `m_hash` is a member of its own, given by the key width it was constructed with. -/
structure TObj (S : Type) where
  tab : Tab S Unit
  /-- `m_hash` -/
  hash : Nat

/-- constructor, sep:317-327, cmp:212-222, grp:941-951 -/
def TObj.new (g : Cfg S Unit) (kw vw : Nat) : TObj S := ⟨Tab.new g kw vw, kw⟩

/-- A call.  The model of the functions takes the hash function of `m_key_width`; a table whose `m_hash` is another one is not
followed any further. -/
def TObj.call (g : Cfg S Unit) (x : TObj S) (op : MapOp) : Res (TObj S × Ans) :=
  if x.hash = x.tab.kw then do
    let (t, a) ← x.tab.step g op
    return (⟨t, x.hash⟩, a)
  else .error .undef

/-- `swap(other)`, sep:363-377, cmp:260-274, grp:753-767: all members are exchanged.  (`m_overflow` of `compact_chaining_map` is a dummy
without members, it is not exchanged there.) -/
def TObj.swap (a b : TObj S) : TObj S × TObj S :=
  (⟨{ kw := b.tab.kw, vw := b.tab.vw, tb := b.tab.tb, elems := b.tab.elems, bpg := b.tab.bpg, store := b.tab.store, ovf := b.tab.ovf }, b.hash⟩,
   ⟨{ kw := a.tab.kw, vw := a.tab.vw, tb := a.tab.tb, elems := a.tab.elems, bpg := a.tab.bpg, store := a.tab.store, ovf := a.tab.ovf }, a.hash⟩)

/-- What remains of a table that was moved from, sep:342-343 and 360, cmp:238 and 255-257: the numbers stay, `m_bucketsizes` is the null
pointer, so every access to a bucket fails. -/
def TObj.husk (g : Cfg S Unit) (x : TObj S) : TObj S := ⟨{ x.tab with store := g.noStore }, x.hash⟩

/-- Move assignment `a = std::move(b)` of different objects: new value of `a` and of `b`.  `viaSwap`: `group_chaining_table`, grp:747-751,
where `a` is cleared and exchanged with `b`; otherwise sep:346-362, cmp:241-259: all members are taken over.  (`m_buckets_per_group` exists in
`group_chaining_table` only.)  `clear()` is applied to `a` first; its members are overwritten afterwards. -/
def TObj.moveAssign (g : Cfg S Unit) (viaSwap : Bool) (a b : TObj S) : TObj S × TObj S :=
  if viaSwap then TObj.swap ⟨a.tab.clear g, a.hash⟩ b
  else (⟨{ kw := b.tab.kw, vw := b.tab.vw, tb := b.tab.tb, elems := b.tab.elems, bpg := b.tab.bpg, store := b.tab.store, ovf := b.tab.ovf }, b.hash⟩, b.husk g)

/-- the same for `a = std::move(a)`: the table is cleared, then its pointers are set to null -/
def TObj.moveSelf (g : Cfg S Unit) (viaSwap : Bool) (a : TObj S) : TObj S :=
  if viaSwap then ⟨a.tab.clear g, a.hash⟩ else TObj.husk g ⟨a.tab.clear g, a.hash⟩

/-- Move construction from `b`: the new object and `b` afterwards, sep:329-344, cmp:224-239.  `group_chaining_table` has no move constructor
(declaring the move assignment removes it). -/
def TObj.moveConstruct (g : Cfg S Unit) (b : TObj S) : TObj S × TObj S :=
  (⟨{ kw := b.tab.kw, vw := b.tab.vw, tb := b.tab.tb, elems := b.tab.elems, bpg := b.tab.bpg, store := b.tab.store, ovf := b.tab.ovf }, b.hash⟩, b.husk g)

/-- the objects of a program; `none`: not constructed -/
abbrev TObjs (S : Type) := Nat → Option (TObj S)

def TObjs.set (s : TObjs S) (i : Nat) (x : Option (TObj S)) : TObjs S := fun j => if j = i then x else s j

/-- one statement; constructing an object where there is one destroys that one first -/
def TObjs.cmd (g : Cfg S Unit) (viaSwap : Bool) (s : TObjs S) : TCmd → Res (TObjs S × List Ans)
  | .create i kw vw => .ok (s.set i (some (TObj.new g kw vw)), [])
  | .call i op => match s i with
    | none => .error .null
    | some x => do
      let (x, a) ← x.call g op
      return (s.set i (some x), [a])
  | .swap i j => match s i, s j with
    | some a, some b => .ok ((s.set i (some (a.swap b).1)).set j (some (a.swap b).2), [])
    | _, _ => .ok ((s.set i (s j)).set j (s i), [])
  | .moveAssign i j => match s i, s j with
    | some a, some b =>
      if i = j then .ok (s.set i (some (a.moveSelf g viaSwap)), [])
      else .ok ((s.set i (some (a.moveAssign g viaSwap b).1)).set j (some (a.moveAssign g viaSwap b).2), [])
    | _, _ => .ok ((s.set i (s j)).set j none, [])
  | .moveConstruct i j => match s j with
    | some b => .ok ((s.set i (some (b.moveConstruct g).1)).set j (some (b.moveConstruct g).2), [])
    | none => .ok ((s.set i none), [])

/-- a program -/
def TObjs.run (g : Cfg S Unit) (viaSwap : Bool) (s : TObjs S) : List TCmd → Res (TObjs S × List Ans)
  | [] => .ok (s, [])
  | c :: prog => do
    let (s, a) ← s.cmd g viaSwap c
    let (s, as) ← TObjs.run g viaSwap s prog
    return (s, a ++ as)

/-! ## Correctness -/

/-- the class refines the finite map, for all widths -/
structure Classy (g : Cfg S Unit) (tr : Nat → Nat → Nat) (widths : Nat → Nat → Prop) (args : Nat → MapOp → Prop)
    (R : Nat → Nat → Tab S Unit → FMap → Prop) : Prop where
  new : ∀ kw vw, widths kw vw → R kw vw (Tab.new g kw vw) FMap.empty
  step : ∀ kw vw t m op, widths kw vw → R kw vw t m → args kw op →
    ∃ t', t.step g op = .ok (t', (m.step (tr vw) op).2) ∧ R kw vw t' (m.step (tr vw) op).1
  kw : ∀ kw vw t m, widths kw vw → R kw vw t m → t.kw = kw

/-- the objects hold the tables -/
def AllHold (widths : Nat → Nat → Prop) (R : Nat → Nat → Tab S Unit → FMap → Prop) (o : TObjs S) (s : Tables) : Prop :=
  ∀ i kw vw m, s i = some (kw, vw, m) → widths kw vw ∧ ∃ x, o i = some x ∧ x.hash = kw ∧ R kw vw x.tab m

variable {g : Cfg S Unit} {tr : Nat → Nat → Nat} {widths : Nat → Nat → Prop} {args : Nat → MapOp → Prop}
  {R : Nat → Nat → Tab S Unit → FMap → Prop} {viaSwap : Bool}

theorem AllHold.set {o : TObjs S} {s : Tables} (h : AllHold widths R o s) {i : Nat} {x : Option (TObj S)} {v : Option (Nat × Nat × FMap)}
    (hx : ∀ kw vw m, v = some (kw, vw, m) → widths kw vw ∧ ∃ y, x = some y ∧ y.hash = kw ∧ R kw vw y.tab m) :
    AllHold widths R (o.set i x) (s.set i v) := by
  intro j kw vw m hj
  unfold Tables.set at hj
  unfold TObjs.set
  by_cases e : j = i
  · simp only [if_pos e] at *; exact hx kw vw m hj
  · simp only [if_neg e] at *; exact h j kw vw m hj

theorem TObjs.cmd_ok (C : Classy g tr widths args R) {o : TObjs S} {s : Tables} (h : AllHold widths R o s) (c : TCmd)
    (hc : match c with
      | .create _ kw vw => widths kw vw
      | .call i op => ∃ kw vw m, s i = some (kw, vw, m) ∧ args kw op
      | _ => True) :
    ∃ o', o.cmd g viaSwap c = .ok (o', (s.cmd tr c).2) ∧ AllHold widths R o' (s.cmd tr c).1 := by
  cases c with
  | create i kw vw =>
    refine ⟨_, rfl, h.set ?_⟩
    intro kw' vw' m e
    cases e
    exact ⟨hc, _, rfl, rfl, C.new _ _ hc⟩
  | call i op =>
    obtain ⟨kw, vw, m, e, ha⟩ := hc
    obtain ⟨hw, x, h1, h2, h3⟩ := h i kw vw m e
    obtain ⟨t', h4, h5⟩ := C.step kw vw x.tab m op hw h3 ha
    have h6 := C.kw kw vw _ _ hw h3
    refine ⟨o.set i (some ⟨t', x.hash⟩), ?_, ?_⟩
    · simp only [TObjs.cmd, h1, TObj.call, h2, h6, if_true, h4, ok_bind, pure_eq_ok, Tables.cmd, e]
    · simp only [Tables.cmd, e]
      refine h.set ?_
      intro kw' vw' m' e'
      cases e'
      exact ⟨hw, _, rfl, h2, h5⟩
  | swap i j =>
    have hi := h i
    have hj := h j
    simp only [Tables.cmd, TObjs.cmd]
    cases ei : o i with
    | none =>
      refine ⟨_, rfl, (h.set ?_).set ?_⟩
      · intro kw vw m e; exact hj kw vw m e
      · intro kw vw m e; rw [← ei]; exact hi kw vw m e
    | some a =>
      cases ej : o j with
      | none =>
        refine ⟨_, rfl, (h.set ?_).set ?_⟩
        · intro kw vw m e; rw [← ej]; exact hj kw vw m e
        · intro kw vw m e; rw [← ei]; exact hi kw vw m e
      | some b =>
        refine ⟨_, rfl, (h.set ?_).set ?_⟩
        · intro kw vw m e
          obtain ⟨hw, x, g1, g2, g3⟩ := hj kw vw m e
          rw [ej] at g1; cases g1
          exact ⟨hw, _, rfl, g2, g3⟩
        · intro kw vw m e
          obtain ⟨hw, x, g1, g2, g3⟩ := hi kw vw m e
          rw [ei] at g1; cases g1
          exact ⟨hw, _, rfl, g2, g3⟩
  | moveAssign i j =>
    have hi := h i
    have hj := h j
    simp only [Tables.cmd, TObjs.cmd]
    cases ei : o i with
    | none =>
      refine ⟨_, rfl, (h.set ?_).set ?_⟩
      · intro kw vw m e; exact hj kw vw m e
      · intro kw vw m e; cases e
    | some a =>
      cases ej : o j with
      | none =>
        refine ⟨_, rfl, (h.set ?_).set ?_⟩
        · intro kw vw m e; rw [← ej]; exact hj kw vw m e
        · intro kw vw m e; cases e
      | some b =>
        simp only
        by_cases hij : i = j
        · subst hij
          rw [if_pos rfl]
          refine ⟨_, rfl, ?_⟩
          have e : (s.set i (s i)).set i none = s.set i none := by funext k; unfold Tables.set; split <;> simp_all
          rw [e]
          refine h.set ?_
          intro kw vw m e; cases e
        · rw [if_neg hij]
          refine ⟨_, rfl, (h.set ?_).set ?_⟩
          · intro kw vw m e
            obtain ⟨hw, x, g1, g2, g3⟩ := hj kw vw m e
            rw [ej] at g1; cases g1
            refine ⟨hw, _, rfl, ?_, ?_⟩
            · unfold TObj.moveAssign; split <;> exact g2
            · unfold TObj.moveAssign; split <;> exact g3
          · intro kw vw m e; cases e
  | moveConstruct i j =>
    have hj := h j
    simp only [Tables.cmd, TObjs.cmd]
    cases ej : o j with
    | none =>
      have e : s j = none := by
        cases e : s j with
        | none => rfl
        | some v =>
          obtain ⟨kw, vw, m⟩ := v
          obtain ⟨_, x, g1, _⟩ := hj kw vw m e
          rw [ej] at g1; cases g1
      refine ⟨_, rfl, ?_⟩
      have e' : (s.set i (s j)).set j none = s.set i none := by
        funext k
        unfold Tables.set
        by_cases hk : k = j
        · subst hk; simp [e]
        · simp [hk, e]
      rw [e']
      refine h.set ?_
      intro kw vw m e; cases e
    | some b =>
      refine ⟨_, rfl, (h.set ?_).set ?_⟩
      · intro kw vw m e
        obtain ⟨hw, x, g1, g2, g3⟩ := hj kw vw m e
        rw [ej] at g1; cases g1
        exact ⟨hw, _, rfl, g2, g3⟩
      · intro kw vw m e; cases e

/-- every program answers like tables with values of their own -/
theorem TObjs.run_ok (C : Classy g tr widths args R) : ∀ (prog : List TCmd) {o : TObjs S} {s : Tables}, AllHold widths R o s →
    s.Valid tr widths args prog → ∃ o', o.run g viaSwap prog = .ok (o', s.run tr prog) ∧ AllHold widths R o' (s.after tr prog) := by
  intro prog
  induction prog with
  | nil => intro o s h _; exact ⟨o, rfl, h⟩
  | cons c prog ih =>
    intro o s h hv
    obtain ⟨o1, h1, h2⟩ := TObjs.cmd_ok (viaSwap := viaSwap) C h c hv.1
    obtain ⟨o2, h3, h4⟩ := ih h2 hv.2
    refine ⟨o2, ?_, h4⟩
    simp only [TObjs.run, h1, ok_bind, h3, pure_eq_ok, Tables.run]

end SC
