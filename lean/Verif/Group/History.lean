import Verif.Group.Store
import Verif.Spec.Buckets
import Verif.Bucket.Run
/-!
# Histories of single groups and packed arrays
-/
namespace SC
open Spec

/-- one call on a group -/
def Group.call (c : GrpCfg) (bpg qw vw : Nat) (x : Group) : GOp → Res Group
  | .push g q v => x.push c bpg g q qw v vw
  | .erase g i => x.erase c bpg g i qw vw
  | .write g i v => x.writeValue c g i v vw

/-- `initialize` followed by calls -/
def Group.calls (c : GrpCfg) (bpg qw vw : Nat) (ops : List GOp) : Res Group := do
  let x ← Group.init c bpg qw vw
  ops.foldlM (fun x op => x.call c bpg qw vw op) x

variable {c : GrpCfg} {bpg qw vw : Nat}

theorem step_upd_push (cs : Buckets) (g q v : Nat) :
    Buckets.step qw vw cs (.push g q v) = upd cs g (cs g ++ [(q % 2 ^ qw, v % 2 ^ vw)]) := by
  funext j
  simp only [Buckets.step, upd]
  split
  · rename_i h; rw [h]
  · rfl

theorem step_upd_erase (cs : Buckets) (g i : Nat) : Buckets.step qw vw cs (.erase g i) = upd cs g ((cs g).eraseIdx i) := by
  funext j
  simp only [Buckets.step, upd]
  split
  · rename_i h; rw [h]
  · rfl

theorem step_upd_write (cs : Buckets) (g i v : Nat) (hi : i < (cs g).length) :
    Buckets.step qw vw cs (.write g i v) = upd cs g ((cs g).set i ((cs g)[i].1, v % 2 ^ vw)) := by
  funext j
  simp only [Buckets.step, upd]
  split
  · rename_i h
    subst h
    apply List.ext_getElem (by simp)
    intro n h1 h2
    rw [List.getElem_modify, List.getElem_set]
    by_cases hn : i = n
    · subst hn; simp
    · simp [hn]
  · rfl

theorem calls_ok (hb : bpg ≤ 255) (hqw : 1 ≤ qw) (hvw : 1 ≤ vw) : ∀ (ops : List GOp) (x : Group) (cs : Buckets),
    GroupRep true x bpg qw vw cs → Buckets.Valid bpg qw vw cs ops → (flat cs bpg).length + ops.length < 2 ^ 32 →
    ∃ y, ops.foldlM (fun x op => Group.call c bpg qw vw x op) x = .ok y ∧ GroupRep true y bpg qw vw (cs.after qw vw ops) := by
  intro ops
  induction ops with
  | nil => intro x cs h _ _; exact ⟨x, rfl, h⟩
  | cons op ops ih =>
    intro x cs h hv hl
    obtain ⟨h1, h2⟩ := hv
    rw [List.length_cons] at hl
    have key : ∃ y, x.call c bpg qw vw op = .ok y ∧ GroupRep true y bpg qw vw (Buckets.step qw vw cs op) ∧
        (flat (Buckets.step qw vw cs op) bpg).length ≤ (flat cs bpg).length + 1 := by
      cases op with
      | push g q v =>
        obtain ⟨y, e1, e2, _⟩ := h.push (c := c) hb hqw hvw (g := g) h1 (by omega) q v
        refine ⟨y, e1, by rw [step_upd_push]; exact e2, ?_⟩
        rw [step_upd_push, flat_push (show g < bpg from h1)]
        rw [List.length_insertIdx_of_le_length]
        have := flat_le (cs := cs) (show g + 1 ≤ bpg from h1)
        exact this
      | erase g i =>
        obtain ⟨h1, hi⟩ := h1
        obtain ⟨y, e1, e2, _⟩ := h.erase (c := c) (fun _ => rfl) hb hqw hvw h1 hi
        refine ⟨y, e1, by rw [step_upd_erase]; exact e2, ?_⟩
        rw [step_upd_erase, flat_erase h1 hi]
        have := List.length_eraseIdx_le (flat cs bpg) ((flat cs g).length + i)
        omega
      | write g i v =>
        obtain ⟨h1, hi⟩ := h1
        obtain ⟨y, e1, e2, _⟩ := h.writeValue (c := c) hb hvw h1 hi v
        refine ⟨y, e1, by rw [step_upd_write _ _ _ _ hi]; exact e2, ?_⟩
        rw [step_upd_write _ _ _ _ hi, flat_set h1 hi, List.length_set]
        omega
    obtain ⟨y, e1, e2, e3⟩ := key
    obtain ⟨z, f1, f2⟩ := ih y _ e2 h2 (by omega)
    exact ⟨z, by rw [List.foldlM_cons, e1, ok_bind, f1], f2⟩

/-- every history of a new group -/
theorem calls_new (hb : bpg ≤ 255) (hqw : 1 ≤ qw) (hvw : 1 ≤ vw) {ops : List GOp}
    (hv : Buckets.Valid bpg qw vw Buckets.empty ops) (hl : ops.length < 2 ^ 32) :
    ∃ y, Group.calls c bpg qw vw ops = .ok y ∧ GroupRep true y bpg qw vw (Buckets.empty.after qw vw ops) := by
  obtain ⟨x, h1, h2, _⟩ := GroupRep.init c true bpg qw vw
  have hf : (flat Buckets.empty bpg).length = 0 := by
    rw [flat_length]
    exact pre_zero (f := fun g => (Buckets.empty g).length) (fun _ => rfl) _
  obtain ⟨y, e1, e2⟩ := calls_ok (c := c) hb hqw hvw ops x Buckets.empty h2 hv (by omega)
  exact ⟨y, by simp only [Group.calls, h1, ok_bind, e1], e2⟩

theorem begin_flat (cs : Buckets) (g : Nat) : cs.begin g = (flat cs g).length := by
  rw [flat_length, pre_sum]; rfl

/-! ## Packed arrays -/

/-- a call; the length is kept by the caller (`m_size` of the group) -/
def coreCall (c : GrpCfg) (w : Nat) (b : VarB) (n : Nat) : AOp → Res (VarB × Nat)
  | .insert i x => do
    let b ← coreInsert c b i x w n
    return (b, n + 1)
  | .erase i => do
    let b ← coreErase c b i w n
    return (b, n - 1)
  | .write i x => do
    let b ← coreWrite c b i x w
    return (b, n)

def coreCalls (c : GrpCfg) (w : Nat) (ops : List AOp) : Res (VarB × Nat) :=
  ops.foldlM (fun p op => coreCall c w p.1 p.2 op) (coreInit w, 0)

theorem apply_insert {w i : Nat} {xs : List Nat} (x : Nat) (h : i ≤ xs.length) :
    AOp.apply w xs (.insert i x) = xs.insertIdx i (x % 2 ^ w) := by
  simp only [AOp.apply]
  induction xs generalizing i with
  | nil => rw [show i = 0 by simpa using h]; rfl
  | cons y ys ih =>
    cases i with
    | zero => rfl
    | succ i => simp [ih (by simpa using h)]

theorem core_step {w : Nat} (hw : 1 ≤ w) {b : VarB} {xs : List Nat} (h : CoreRep true b w xs) {op : AOp} (hop : op.OK xs.length) :
    ∃ b', coreCall c w b xs.length op = .ok (b', (op.apply w xs).length) ∧ CoreRep true b' w (op.apply w xs) := by
  cases op with
  | insert i x =>
    obtain ⟨b', e1, e2⟩ := coreInsert_eq (c := c) hw h (idx := i) hop x
    rw [apply_insert x hop]
    exact ⟨b', by simp only [coreCall, e1, ok_bind, List.length_insertIdx_of_le_length hop]; rfl, e2⟩
  | erase i =>
    obtain ⟨b', e1, e2⟩ := coreErase_eq (c := c) hw h (fun _ => rfl) (i := i) hop
    have : AOp.apply w xs (.erase i) = xs.eraseIdx i := by rw [List.eraseIdx_eq_take_drop_succ]; rfl
    rw [this]
    exact ⟨b', by simp only [coreCall, e1, ok_bind, List.length_eraseIdx_of_lt (show i < xs.length from hop)]; rfl, e2⟩
  | write i x =>
    obtain ⟨b', e1, e2⟩ := coreWrite_eq (c := c) hw h (i := i) hop x
    exact ⟨b', by simp only [coreCall, e1, ok_bind, AOp.apply, List.length_set]; rfl, e2⟩

theorem core_calls {w : Nat} (hw : 1 ≤ w) : ∀ (ops : List AOp) (b : VarB) (xs : List Nat), CoreRep true b w xs → AOp.Valid w xs ops →
    ∃ b', ops.foldlM (fun p op => coreCall c w p.1 p.2 op) (b, xs.length) = .ok (b', (AOp.after w xs ops).length) ∧
      CoreRep true b' w (AOp.after w xs ops) := by
  intro ops
  induction ops with
  | nil => intro b xs h _; exact ⟨b, rfl, h⟩
  | cons op ops ih =>
    intro b xs h hv
    obtain ⟨b1, e1, e2⟩ := core_step (c := c) hw h hv.1
    obtain ⟨b2, f1, f2⟩ := ih b1 _ e2 hv.2
    exact ⟨b2, by rw [List.foldlM_cons, e1, ok_bind, f1]; rfl, f2⟩

end SC
