import Verif.Own.AoProofs
import Verif.Props.OwnBt
/-!
# Programs with several objects of the class `array_overflow`: C117

Programs construct objects, call their functions, swap them, move-assign them (also to themselves) and destroy them.
-/
namespace SC
open Own

variable {junk : Nat → Nat → Nat} {prog : List (OCmd AoOp)}

theorem ao_exec (junk : Nat → Nat → Nat) (hv : aoObjects.Valid AoOK [] prog) :
    ∃ s, (Ao.cls junk).exec { heap := Heap.empty, objs := [] } prog = .ok (s, (aoObjects.exec [] prog).2) ∧
      OInv (Ao.laws junk) (aoObjects.exec [] prog).1 s := ObjClass.exec_ok (Ao.laws junk) prog (OInv.start _) hv

/-- **C117**, the true part: a program in which objects without arrays - those that were moved from or cleared - are only assigned to, cleared, read from files
or destroyed, and in which no other object is read from a file, has no fault, all answers are those of independent lists, whatever fresh memory contains, and
destroying the objects that are left leaves no block.  Missing: C117 for objects that were moved from or cleared, and for reading files into other objects;
the negations are proved below. -/
theorem C117_overflow_arrays_partial (junk : Nat → Nat → Nat) (hv : aoObjects.Valid AoOK [] prog) :
    ∃ s h, (Ao.cls junk).exec { heap := Heap.empty, objs := [] } prog = .ok (s, (aoObjects.exec [] prog).2) ∧
      (Ao.cls junk).destroyAll s.heap s.objs = .ok h ∧ Heap.Empty h := by
  obtain ⟨s, h1, h2⟩ := ao_exec junk hv
  obtain ⟨h, h3, h4⟩ := h2.destroyAll
  exact ⟨s, h, h1, h3, h4⟩

/-- two objects are filled, swapped, moved around, written to a file and read from it, and assigned to -/
def aoProg : List (OCmd AoOp) :=
  [.new, .call 0 .renew, .new, .call 1 .renew] ++ [3, 14, 15, 92].map (fun k => .call 0 (.insert k (10 * k))) ++
  [.call 1 (.insert 7 70), .swap 0 1, .call 0 (.find 7), .call 0 (.find 15), .call 1 (.find 15), .call 1 (.erase 3), .call 1 (.find 92), .call 1 (.set 0 5),
    .call 1 (.at 0), .call 1 .save, .new, .moveAssign 2 1, .call 2 .size, .call 1 .clear, .call 1 (.load [(1, 2), (3, 4)]), .call 1 (.find 3), .call 1 .size,
    .moveAssign 2 1, .call 2 .save, .swap 2 2, .call 1 .renew, .call 1 .size, .call 1 (.insert 8 9), .call 1 .renew, .call 1 (.find 8), .destroy 0,
    .moveAssign 0 0, .call 0 .renew, .call 0 (.insert 6 6)]

theorem aoProg_ok : aoObjects.Valid AoOK [] aoProg := by decide +kernel

example (junk : Nat → Nat → Nat) : ∃ s h, (Ao.cls junk).exec { heap := Heap.empty, objs := [] } aoProg = .ok (s, (aoObjects.exec [] aoProg).2) ∧
    (Ao.cls junk).destroyAll s.heap s.objs = .ok h ∧ Heap.Empty h := C117_overflow_arrays_partial junk aoProg_ok

/-- the answers of the program after the first insertions -/
example : ((aoObjects.exec [] aoProg).2.drop 6).filter (· ≠ .none) =
    [.num 0, .pair 0 70, .absent, .pair 2 150, .absent, .pair 3 5, .file [(3, 5), (14, 140), (15, 150)], .num 3, .pair 1 4, .num 2, .file [(1, 2), (3, 4)],
      .num 0, .num 0, .absent, .num 0] := by decide +kernel

theorem ao_card {V : Option Ao.AV} {t : AoObj} {m : AoVal} (h : Ao.Of V t m) : (Ao.foot V).card = if m.isSome then 2 else 0 := by
  match V, m, h with
  | none, none, _ => rfl
  | some _, some _, _ => rfl

/-- **C117**: an object holds exactly two blocks - also if it has no elements - or, if it was moved from or cleared, none -/
theorem C117_two_blocks_partial (junk : Nat → Nat → Nat) (hv : aoObjects.Valid AoOK [] prog) :
    ∃ s, ∃ as : List Nat, (Ao.cls junk).exec { heap := Heap.empty, objs := [] } prog = .ok s ∧ as.Nodup ∧ (∀ a, a ∈ as ↔ s.1.heap.mem a ≠ none) ∧
      as.length = 2 * (aoObjects.exec [] prog).1.countP Option.isSome := by
  obtain ⟨s, h1, l, e1, e2, hok, his⟩ := ao_exec junk hv
  obtain ⟨as, ea⟩ : ∃ as : List Nat, (as : Multiset Nat) = (oitemsFoot (Ao.laws junk) l).map Prod.fst := Quot.exists_rep _
  refine ⟨_, as, h1, ?_, fun a => ?_, ?_⟩
  · rw [← Multiset.coe_nodup, ea]; exact his.nodup
  · rw [← Multiset.mem_coe, ea, Multiset.mem_map]
    constructor
    · rintro ⟨⟨_, b⟩, hx, rfl⟩
      rw [(his.mem _ b).mpr hx]
      exact Option.some_ne_none b
    · intro h
      obtain ⟨b, hb⟩ := Option.ne_none_iff_exists'.mp h
      exact ⟨(a, b), (his.mem a b).mp hb, rfl⟩
  · rw [← Multiset.coe_card, ea, Multiset.card_map, ← e2]
    clear h1 e1 e2 his ea
    induction l with
    | nil => rfl
    | cons x l ih =>
      have h2 := ao_card (hok x List.mem_cons_self)
      have h3 := ih (fun y hy => hok y (List.mem_cons_of_mem _ hy))
      have h4 : (oitemsFoot (Ao.laws junk) (x :: l)).card = (Ao.foot x.W).card + (oitemsFoot (Ao.laws junk) l).card := by
        simp only [oitemsFoot, List.map_cons, List.sum_cons, Multiset.card_add]
        rfl
      rw [h4, h2, h3, List.map_cons, List.countP_cons]
      cases hz : x.m.isSome
      · simp
      · simp; omega

example (junk : Nat → Nat → Nat) : ∃ s, ∃ as : List Nat, (Ao.cls junk).exec { heap := Heap.empty, objs := [] } aoProg = .ok s ∧ as.Nodup ∧
    (∀ a, a ∈ as ↔ s.1.heap.mem a ≠ none) ∧ as.length = 2 * 2 := by
  have h := C117_two_blocks_partial junk aoProg_ok
  have e : (aoObjects.exec [] aoProg).1.countP Option.isSome = 2 := by decide +kernel
  rw [e] at h
  exact h

/-! ## What does not hold -/

/-- the fresh memory of the examples -/
def aoZero : Nat → Nat → Nat := fun _ _ => 0

/-- the blocks with the addresses below 10 that are left when all objects of a program are destroyed -/
def aoLeft (prog : List (OCmd AoOp)) : Option (List Nat) :=
  match (Ao.cls aoZero).exec { heap := Heap.empty, objs := [] } prog with
  | .ok (s, _) => match (Ao.cls aoZero).destroyAll s.heap s.objs with
    | .ok h => some ((List.range 10).filter (fun a => (h.mem a).isSome))
    | .error _ => none
  | .error _ => none

/-- the answers of a program, or the fault -/
def aoAnswers (prog : List (OCmd AoOp)) : Fault ⊕ List AoAns :=
  match (Ao.cls aoZero).exec { heap := Heap.empty, objs := [] } prog with
  | .ok (_, as) => .inr as
  | .error e => .inl e

/-- **C117 fails for reading files**: an object that was just constructed has arrays, which `deserialize` does not release.  Two blocks are never released. -/
theorem not_C117_load_leaks : aoLeft [.new, .call 0 .renew, .call 0 (.load [(1, 2)])] = some [0, 1] := by decide +kernel

/-- … and with `clear` before reading nothing is left -/
example : aoLeft [.new, .call 0 .renew, .call 0 .clear, .call 0 (.load [(1, 2)])] = some [] := by decide +kernel

/-- **C117 fails for objects that were moved from**: they still claim to hold their pairs, but looking at one is a null pointer dereference, and so is `find` -/
theorem not_C117_moved_from :
    aoAnswers [.new, .call 0 .renew, .call 0 (.insert 1 2), .new, .moveAssign 1 0, .call 0 .size] = .inr [.none, .num 0, .num 1] ∧
    aoAnswers [.new, .call 0 .renew, .call 0 (.insert 1 2), .new, .moveAssign 1 0, .call 0 (.at 0)] = .inl .null ∧
    aoAnswers [.new, .call 0 .renew, .call 0 (.insert 1 2), .new, .moveAssign 1 0, .call 0 (.find 1)] = .inl .null := by decide +kernel

/-- **C117 fails for objects that were cleared**: they cannot be filled again -/
theorem not_C117_cleared :
    aoAnswers [.new, .call 0 .renew, .call 0 (.insert 1 2), .call 0 .clear, .call 0 .size] = .inr [.none, .num 0, .none, .num 1] ∧
    aoAnswers [.new, .call 0 .renew, .call 0 .clear, .call 0 (.insert 1 2)] = .inl .null := by decide +kernel

end SC
