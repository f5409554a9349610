import Verif.Own.BtProofs
import Verif.Props.Own
/-!
# Programs with several `bucket_table`s: C75, C76

Programs construct tables, call their functions, swap them, move-assign them (also to themselves) and destroy them.  Tables that were moved from may be used.
-/
namespace SC
open Own

/-- precondition of a call on a table with the contents `m`: keys of `kw` bits, and no more elements than the resize strategy can count -/
def BtCallOK (c : BtMem) (kw : Nat) (m : FMap) (op : MapOp) : Prop :=
  BtValid kw op ∧ (m.step (fun v => v % 2 ^ c.vbits) op).1.size ≤ (match c.strat with | .incremental => 2 ^ 32 - 1 | .arbitrary => 255)

instance (c : BtMem) (kw : Nat) (m : FMap) (op : MapOp) : Decidable (BtCallOK c kw m op) := by
  unfold BtCallOK; infer_instance

variable {c : BtMem} {kw : Nat} {prog : List (OCmd MapOp)}

theorem ObjSpec.Valid.mono {M Op A : Type} {S : ObjSpec M Op A} {P Q : M → Op → Prop} (hPQ : ∀ m op, P m op → Q m op) :
    ∀ (prog : List (OCmd Op)) {ms : List M}, S.Valid P ms prog → S.Valid Q ms prog := by
  intro prog
  induction prog with
  | nil => intro ms _; trivial
  | cons c prog ih =>
    intro ms h
    refine ⟨?_, ih h.2⟩
    have h1 := h.1
    cases c with
    | call i op =>
      revert h1
      simp only
      cases ms[i]? with
      | none => exact id
      | some m => exact hPQ m op
    | _ => trivial

theorem bt_exec (hv : (mapObjects (fun v => v % 2 ^ c.vbits)).Valid (BtCallOK c kw) [] prog) :
    ∃ s, (Bt.cls c).exec { heap := Heap.empty, objs := [] } prog = .ok (s, ((mapObjects (fun v => v % 2 ^ c.vbits)).exec [] prog).2) ∧
      OInv (Bt.laws c kw) ((mapObjects (fun v => v % 2 ^ c.vbits)).exec [] prog).1 s := by
  refine ObjClass.exec_ok (Bt.laws c kw) prog (OInv.start _) (hv.mono (fun m op h => ⟨h.1, ?_⟩))
  have := h.2
  revert this
  cases c.strat <;> exact id

/-! ## C75 -/

/-- **C75**: a program with any number of tables has no fault, all answers are those of independent finite maps - swapping exchanges the contents, moving leaves
an empty table that can be used like a new one - and destroying the tables that are left leaves no block. -/
theorem C75_bucket_tables (hv : (mapObjects (fun v => v % 2 ^ c.vbits)).Valid (BtCallOK c kw) [] prog) :
    ∃ s h, (Bt.cls c).exec { heap := Heap.empty, objs := [] } prog = .ok (s, ((mapObjects (fun v => v % 2 ^ c.vbits)).exec [] prog).2) ∧
      (Bt.cls c).destroyAll s.heap s.objs = .ok h ∧ Heap.Empty h := by
  obtain ⟨s, h1, h2⟩ := bt_exec hv
  obtain ⟨h, h3, h4⟩ := h2.destroyAll
  exact ⟨s, h, h1, h3, h4⟩

/-- `bucket_table<avx2_bucket<uint32_t>, class_bucket<…>, …>` -/
def btMemEx (st : Strategy) : BtMem := { kmem := avxMem, vmem := classMem, vbits := 16, strat := st }

/-- two tables are filled, swapped and moved around; the table that was moved from is used again; one table is moved to itself -/
def btMemProg : List (OCmd MapOp) :=
  [.new, .new] ++ [3, 14, 15, 92, 65, 35].map (fun k => .call 0 (.insert k (1000 * k))) ++
  [.call 1 (.assign 7 77), .swap 0 1, .call 0 (.find 7), .call 1 (.find 15), .call 1 (.erase 14), .new, .moveAssign 2 1, .call 1 .size, .call 1 (.insert 5 9),
    .call 2 .size, .call 2 (.find 92), .moveAssign 2 1, .call 2 (.find 92), .call 2 (.find 5), .call 1 (.count 5), .swap 2 2, .call 2 .shrink, .call 2 (.count 5),
    .moveAssign 2 2, .call 2 .empty, .destroy 0, .call 1 (.insert 1 2), .call 0 (.insert 8 8)]

theorem btMemProg_ok (st : Strategy) : (mapObjects (fun v => v % 2 ^ (btMemEx st).vbits)).Valid (BtCallOK (btMemEx st) 7) [] btMemProg := by
  cases st <;> decide +kernel

example : ∃ s h, (Bt.cls (btMemEx .arbitrary)).exec { heap := Heap.empty, objs := [] } btMemProg =
      .ok (s, ((mapObjects (fun v => v % 2 ^ 16)).exec [] btMemProg).2) ∧
    (Bt.cls (btMemEx .arbitrary)).destroyAll s.heap s.objs = .ok h ∧ Heap.Empty h := C75_bucket_tables (btMemProg_ok .arbitrary)

/-- the answers of the program, without those to the first calls -/
example : ((mapObjects (fun v => v % 2 ^ 16)).exec [] btMemProg).2.drop 7 =
    [.pair 7 77, .pair 15 15000, .num 1, .num 0, .pair 5 9, .num 5, .pair 92 (92000 % 65536), .absent, .pair 5 9, .num 0, .none, .num 1, .bool true,
      .pair 1 2, .pair 8 8] := by decide +kernel

/-! ## C76 -/

theorem bt_card {V : Option Bt.BV} {t : BtObj} {m : FMap} (h : Bt.Of c V t m) : (Bt.foot c V).card = if m.size = 0 then 0 else 2 := by
  cases V with
  | none => rw [h.2.size]; rfl
  | some V =>
    obtain ⟨l, b, ha⟩ := h
    rw [ha.size, if_neg (fun e => b.ne (List.eq_nil_of_length_eq_zero e))]
    rfl

/-- **C76**: a table holds exactly two blocks while it has elements, and none otherwise: also `erase` of the last element, `clear` and moving release everything. -/
theorem C76_two_blocks (hv : (mapObjects (fun v => v % 2 ^ c.vbits)).Valid (BtCallOK c kw) [] prog) :
    ∃ s, ∃ as : List Nat, (Bt.cls c).exec { heap := Heap.empty, objs := [] } prog = .ok s ∧ as.Nodup ∧ (∀ a, a ∈ as ↔ s.1.heap.mem a ≠ none) ∧
      as.length = 2 * ((mapObjects (fun v => v % 2 ^ c.vbits)).exec [] prog).1.countP (fun m => m.size != 0) := by
  obtain ⟨s, h1, l, e1, e2, hok, his⟩ := bt_exec hv
  obtain ⟨as, ea⟩ : ∃ as : List Nat, (as : Multiset Nat) = (oitemsFoot (Bt.laws c kw) l).map Prod.fst := Quot.exists_rep _
  refine ⟨_, as, h1, ?_, fun a => ?_, ?_⟩
  · rw [← Multiset.coe_nodup, ea]; exact his.nodup
  · rw [← Multiset.mem_coe, ea, Multiset.mem_map]
    constructor
    · rintro ⟨⟨_, b⟩, hx, rfl⟩
      rw [(his.mem _ b).mpr hx]
      exact Option.some_ne_none b
    · intro h
      obtain ⟨b, hb⟩ := Option.ne_none_iff_exists'.mp h
      exact ⟨(a, b), (his.mem a b).mp hb, rfl⟩
  · rw [← Multiset.coe_card, ea, Multiset.card_map, ← e2]
    clear h1 e1 e2 his ea
    induction l with
    | nil => rfl
    | cons x l ih =>
      have h2 := bt_card (hok x List.mem_cons_self)
      have h3 := ih (fun y hy => hok y (List.mem_cons_of_mem _ hy))
      have h4 : (oitemsFoot (Bt.laws c kw) (x :: l)).card = (Bt.foot c x.W).card + (oitemsFoot (Bt.laws c kw) l).card := by
        simp only [oitemsFoot, List.map_cons, List.sum_cons, Multiset.card_add]
        rfl
      rw [h4, h2, h3, List.map_cons, List.countP_cons]
      by_cases hz : x.m.size = 0
      · simp [hz]
      · simp [hz]; omega

example : ∃ s, ∃ as : List Nat, (Bt.cls (btMemEx .incremental)).exec { heap := Heap.empty, objs := [] } btMemProg = .ok s ∧ as.Nodup ∧
    (∀ a, a ∈ as ↔ s.1.heap.mem a ≠ none) ∧ as.length = 2 * 2 := by
  have h := C76_two_blocks (btMemProg_ok .incremental)
  have e : ((mapObjects (fun v => v % 2 ^ (btMemEx .incremental).vbits)).exec [] btMemProg).1.countP (fun m => m.size != 0) = 2 := by decide +kernel
  rw [e] at h
  exact h

end SC
