import Verif.Own.Sep
import Verif.Spec.Objects
/-!
# Programs with several objects that own memory

If every function of a class works for one object, whatever else is in the heap, then programs with several objects do what they should do.
-/
namespace SC.Own

/-- the functions of a class; `swap` and `moveAssign` are for different objects and give both, `selfSwap` and `selfMove` are `x.swap(x)` and `x = std::move(x)` -/
structure ObjClass (T Op A : Type) where
  new : T
  call : Heap → T → Op → Res (T × Heap × A)
  swap : Heap → T → T → Res (T × T × Heap)
  moveAssign : Heap → T → T → Res (T × T × Heap)
  selfSwap : Heap → T → Res (T × Heap)
  selfMove : Heap → T → Res (T × Heap)
  destroy : Heap → T → Res Heap

/-- heap and objects -/
structure OSt (T : Type) where
  heap : Heap
  objs : List T

variable {T Op A M : Type}

/-- one statement -/
def ObjClass.cmd (C : ObjClass T Op A) (s : OSt T) : OCmd Op → Res (OSt T × List A)
  | .new => .ok ({ s with objs := s.objs ++ [C.new] }, [])
  | .call i op => match s.objs[i]? with
    | none => .ok (s, [])
    | some t => do
      let (t, h, a) ← C.call s.heap t op
      return ({ heap := h, objs := s.objs.set i t }, [a])
  | .swap i j => match s.objs[i]?, s.objs[j]? with
    | some a, some b => if i = j then do
        let (a, h) ← C.selfSwap s.heap a
        return ({ heap := h, objs := s.objs.set i a }, [])
      else do
        let (a, b, h) ← C.swap s.heap a b
        return ({ heap := h, objs := (s.objs.set i a).set j b }, [])
    | _, _ => .ok (s, [])
  | .moveAssign i j => match s.objs[i]?, s.objs[j]? with
    | some t, some o => if i = j then do
        let (t, h) ← C.selfMove s.heap t
        return ({ heap := h, objs := s.objs.set i t }, [])
      else do
        let (t, o, h) ← C.moveAssign s.heap t o
        return ({ heap := h, objs := (s.objs.set i t).set j o }, [])
    | _, _ => .ok (s, [])
  | .destroy i => match s.objs[i]? with
    | none => .ok (s, [])
    | some t => do
      let h ← C.destroy s.heap t
      return ({ heap := h, objs := s.objs.eraseIdx i }, [])

/-- a program; gives the answers to the calls -/
def ObjClass.exec (C : ObjClass T Op A) (s : OSt T) : List (OCmd Op) → Res (OSt T × List A)
  | [] => .ok (s, [])
  | c :: prog => do
    let (s, as) ← C.cmd s c
    let (s, bs) ← ObjClass.exec C s prog
    return (s, as ++ bs)

/-- all objects are destroyed, last one first -/
def ObjClass.destroyAll (C : ObjClass T Op A) (h : Heap) : List T → Res Heap
  | [] => .ok h
  | t :: ts => do
    let h ← ObjClass.destroyAll C h ts
    C.destroy h t

/-- The functions work for a single object: `Of W t m` says that the blocks described by `W` belong to the object `t` and give it the value `m`. -/
structure ObjLaws (C : ObjClass T Op A) (S : ObjSpec M Op A) (P : M → Op → Prop) where
  View : Type
  foot : View → Foot
  Of : View → T → M → Prop
  new : ∃ W, Of W C.new S.init ∧ foot W = 0
  call : ∀ (h : Heap) (t : T) (m : M) (op : Op) (W : View) (R : Foot), Of W t m → h.Is (foot W + R) → P m op →
    ∃ W' t' h', C.call h t op = .ok (t', h', (S.step m op).2) ∧ Of W' t' (S.step m op).1 ∧ h'.Is (foot W' + R)
  swap : ∀ h a b, C.swap h a b = .ok (b, a, h)
  moveAssign : ∀ (h : Heap) (t o : T) (m m' : M) (W W' : View) (R : Foot), Of W t m → Of W' o m' → h.Is (foot W + (foot W' + R)) →
    ∃ V V' t' o' h', C.moveAssign h t o = .ok (t', o', h') ∧ Of V t' m' ∧ Of V' o' S.init ∧ h'.Is (foot V + (foot V' + R))
  selfSwap : ∀ h a, C.selfSwap h a = .ok (a, h)
  selfMove : ∀ (h : Heap) (t : T) (m : M) (W : View) (R : Foot), Of W t m → h.Is (foot W + R) →
    ∃ W' t' h', C.selfMove h t = .ok (t', h') ∧ Of W' t' S.init ∧ h'.Is (foot W' + R)
  destroy : ∀ (h : Heap) (t : T) (m : M) (W : View) (R : Foot), Of W t m → h.Is (foot W + R) → ∃ h', C.destroy h t = .ok h' ∧ h'.Is R

variable {C : ObjClass T Op A} {S : ObjSpec M Op A} {P : M → Op → Prop} (Λ : ObjLaws C S P)

/-- an object, its value and its blocks -/
structure OItem (V T M : Type) where
  t : T
  m : M
  W : V

def oitemsFoot (l : List (OItem Λ.View T M)) : Foot := (l.map (fun x => Λ.foot x.W)).sum

/-- the objects have these values and own all blocks of the heap -/
def OInv (ms : List M) (s : OSt T) : Prop :=
  ∃ l : List (OItem Λ.View T M), l.map OItem.t = s.objs ∧ l.map OItem.m = ms ∧ (∀ x ∈ l, Λ.Of x.W x.t x.m) ∧ s.heap.Is (oitemsFoot Λ l)

theorem oitemsFoot_set {i : Nat} {l : List (OItem Λ.View T M)} {x : OItem Λ.View T M} (hx : l[i]? = some x) :
    ∃ F, oitemsFoot Λ l = Λ.foot x.W + F ∧ ∀ y, oitemsFoot Λ (l.set i y) = Λ.foot y.W + F :=
  sum_set (fun x : OItem Λ.View T M => Λ.foot x.W) l i x hx

theorem oitemsFoot_append (l : List (OItem Λ.View T M)) (x : OItem Λ.View T M) : oitemsFoot Λ (l ++ [x]) = Λ.foot x.W + oitemsFoot Λ l := by
  simp only [oitemsFoot, List.map_append, List.map_cons, List.map_nil, List.sum_append, List.sum_cons, List.sum_nil, add_zero]
  ac_rfl

theorem oitemsFoot_erase : ∀ {l : List (OItem Λ.View T M)} {i : Nat} {x : OItem Λ.View T M}, l[i]? = some x →
    oitemsFoot Λ l = Λ.foot x.W + oitemsFoot Λ (l.eraseIdx i) := by
  intro l
  induction l with
  | nil => intro i x h; simp at h
  | cons y l ih =>
    intro i x h
    cases i with
    | zero =>
      simp only [List.getElem?_cons_zero, Option.some.injEq] at h
      subst h
      rfl
    | succ i =>
      have := ih (i := i) h
      simp only [oitemsFoot, List.map_cons, List.sum_cons, List.eraseIdx_cons_succ] at this ⊢
      rw [this]
      ac_rfl

theorem oitemsFoot_set2 {i j : Nat} {l : List (OItem Λ.View T M)} {x y : OItem Λ.View T M} (hx : l[i]? = some x) (hy : l[j]? = some y) (hij : i ≠ j) :
    ∃ F, oitemsFoot Λ l = Λ.foot x.W + (Λ.foot y.W + F) ∧
      ∀ x' y', oitemsFoot Λ ((l.set i x').set j y') = Λ.foot x'.W + (Λ.foot y'.W + F) := by
  obtain ⟨W0, -, z0⟩ := Λ.new
  obtain ⟨S', s1, s2⟩ := oitemsFoot_set Λ hx
  have hy' : ∀ x', (l.set i x')[j]? = some y := fun x' => by rw [List.getElem?_set_ne hij, hy]
  obtain ⟨S'', u1, u2⟩ := oitemsFoot_set Λ (hy' ⟨x.t, x.m, W0⟩)
  have e : S' = Λ.foot y.W + S'' := by
    rw [s2] at u1
    simpa only [z0, zero_add] using u1
  refine ⟨S'', by rw [s1, e], fun x' y' => ?_⟩
  obtain ⟨T', w1, w2⟩ := oitemsFoot_set Λ (hy' x')
  rw [w2]
  rw [s2, e] at w1
  have : T' = Λ.foot x'.W + S'' := by
    refine (add_left_cancel (a := Λ.foot y.W) ?_).symm
    rw [← w1]; ac_rfl
  rw [this]; ac_rfl

theorem oitem_get {V : Type} {i : Nat} {l : List (OItem V T M)} {ts : List T} {ms : List M} (hl : l.map OItem.t = ts) (hm : l.map OItem.m = ms) {t : T}
    (ht : ts[i]? = some t) : ∃ x : OItem V T M, l[i]? = some x ∧ x.t = t ∧ ms[i]? = some x.m := by
  rw [← hl, List.getElem?_map] at ht
  obtain ⟨x, h1, h2⟩ := Option.map_eq_some_iff.mp ht
  exact ⟨x, h1, h2, by rw [← hm, List.getElem?_map, h1]; rfl⟩

theorem oitem_none {V : Type} {i : Nat} {l : List (OItem V T M)} {ts : List T} {ms : List M} (hl : l.map OItem.t = ts) (hm : l.map OItem.m = ms)
    (h : ts[i]? = none) : ms[i]? = none := by
  rw [← hl, List.getElem?_map, Option.map_eq_none_iff] at h
  rw [← hm, List.getElem?_map, h]; rfl

theorem oall_set {α : Type} {i : Nat} {Q : α → Prop} {l : List α} (hl : ∀ x ∈ l, Q x) {y : α} (hy : Q y) : ∀ x ∈ l.set i y, Q x := by
  intro x hx
  rcases List.mem_or_eq_of_mem_set hx with h | h
  · exact hl x h
  · rw [h]; exact hy

theorem set_set_self {α : Type} {l : List α} {i : Nat} {x : α} (h : l[i]? = some x) : (l.set i x).set i x = l := by
  obtain ⟨h1, h2⟩ := List.getElem?_eq_some_iff.mp h
  rw [List.set_set, ← h2, List.set_getElem_self]

/-- every statement does what it should do -/
theorem ObjClass.cmd_ok {ms : List M} {s : OSt T} (hI : OInv Λ ms s) (c : OCmd Op) (hv : S.Valid P ms [c]) :
    ∃ s', C.cmd s c = .ok (s', (S.cmd ms c).2) ∧ OInv Λ (S.cmd ms c).1 s' := by
  obtain ⟨l, e1, e2, hok, his⟩ := hI
  have hv := hv.1
  cases c with
  | new =>
    obtain ⟨W0, z1, z2⟩ := Λ.new
    refine ⟨_, rfl, l ++ [⟨C.new, S.init, W0⟩], by simp [e1], by simp [e2, ObjSpec.cmd], ?_, his.cast ?_⟩
    · intro x hx
      rcases List.mem_append.mp hx with h | h
      · exact hok x h
      · rw [List.mem_singleton.mp h]
        exact z1
    · rw [oitemsFoot_append]; simp [z2]
  | call i op =>
    simp only [ObjClass.cmd, ObjSpec.cmd] at hv ⊢
    cases ht : s.objs[i]? with
    | none =>
      rw [oitem_none e1 e2 ht]
      exact ⟨s, rfl, l, e1, e2, hok, his⟩
    | some t =>
      obtain ⟨x, x1, rfl, x3⟩ := oitem_get e1 e2 ht
      rw [x3] at hv ⊢
      obtain ⟨F, s1, s2⟩ := oitemsFoot_set Λ x1
      obtain ⟨W', t', h', a1, a2, a3⟩ := Λ.call s.heap x.t x.m op x.W F (hok x (List.mem_of_getElem? x1)) (his.cast s1) hv
      refine ⟨{ heap := h', objs := s.objs.set i t' }, by simp only [a1, ok_bind, pure_eq_ok], l.set i ⟨t', (S.step x.m op).1, W'⟩, by rw [List.map_set, e1],
        by rw [List.map_set, e2], oall_set hok a2, a3.cast ?_⟩
      rw [s2]
  | swap i j =>
    simp only [ObjClass.cmd, ObjSpec.cmd]
    cases hti : s.objs[i]? with
    | none => rw [oitem_none e1 e2 hti]; exact ⟨s, rfl, l, e1, e2, hok, his⟩
    | some a =>
      obtain ⟨x, x1, rfl, x3⟩ := oitem_get e1 e2 hti
      cases htj : s.objs[j]? with
      | none => rw [oitem_none e1 e2 htj, x3]; exact ⟨s, rfl, l, e1, e2, hok, his⟩
      | some b =>
        obtain ⟨y, y1, rfl, y3⟩ := oitem_get e1 e2 htj
        rw [x3, y3]
        by_cases hij : i = j
        · subst hij
          cases x1.symm.trans y1
          simp only [if_true, Λ.selfSwap, ok_bind, set_set_self x3]
          refine ⟨_, rfl, l, ?_, e2, hok, his⟩
          rw [← List.set_set (b := x.t), set_set_self hti]
          exact e1
        · obtain ⟨F, s1, s2⟩ := oitemsFoot_set2 Λ x1 y1 hij
          simp only [if_neg hij, Λ.swap, ok_bind]
          refine ⟨_, rfl, (l.set i y).set j x, by rw [List.map_set, List.map_set, e1], by rw [List.map_set, List.map_set, e2],
            oall_set (oall_set hok (hok y (List.mem_of_getElem? y1))) (hok x (List.mem_of_getElem? x1)), his.cast ?_⟩
          rw [s1, s2]; ac_rfl
  | moveAssign i j =>
    simp only [ObjClass.cmd, ObjSpec.cmd]
    cases hti : s.objs[i]? with
    | none => rw [oitem_none e1 e2 hti]; exact ⟨s, rfl, l, e1, e2, hok, his⟩
    | some a =>
      obtain ⟨x, x1, rfl, x3⟩ := oitem_get e1 e2 hti
      cases htj : s.objs[j]? with
      | none => rw [oitem_none e1 e2 htj, x3]; exact ⟨s, rfl, l, e1, e2, hok, his⟩
      | some b =>
        obtain ⟨y, y1, rfl, y3⟩ := oitem_get e1 e2 htj
        rw [x3, y3]
        by_cases hij : i = j
        · subst hij
          cases x1.symm.trans y1
          obtain ⟨F, s1, s2⟩ := oitemsFoot_set Λ x1
          obtain ⟨W', t', h', a1, a2, a3⟩ := Λ.selfMove s.heap x.t x.m x.W F (hok x (List.mem_of_getElem? x1)) (his.cast s1)
          simp only [if_true, a1, ok_bind, List.set_set]
          refine ⟨_, rfl, l.set i ⟨t', S.init, W'⟩, by rw [List.map_set, e1], by rw [List.map_set, e2], oall_set hok a2, a3.cast ?_⟩
          rw [s2]
        · obtain ⟨F, s1, s2⟩ := oitemsFoot_set2 Λ x1 y1 hij
          obtain ⟨V, V', t', o', h', a1, a2, a3, a4⟩ := Λ.moveAssign s.heap x.t y.t x.m y.m x.W y.W F (hok x (List.mem_of_getElem? x1))
            (hok y (List.mem_of_getElem? y1)) (his.cast s1)
          simp only [if_neg hij, a1, ok_bind]
          refine ⟨_, rfl, (l.set i ⟨t', y.m, V⟩).set j ⟨o', S.init, V'⟩, by rw [List.map_set, List.map_set, e1], by rw [List.map_set, List.map_set, e2],
            oall_set (oall_set hok a2) a3, a4.cast ?_⟩
          rw [s2]
  | destroy i =>
    simp only [ObjClass.cmd, ObjSpec.cmd]
    have em : ∀ {β : Type} (f : OItem Λ.View T M → β), (l.eraseIdx i).map f = (l.map f).eraseIdx i := fun f => by
      simp [List.eraseIdx_eq_take_drop_succ, List.map_take, List.map_drop]
    cases ht : s.objs[i]? with
    | none =>
      have h0 := oitem_none e1 e2 ht
      have h1 : ms.eraseIdx i = ms := List.eraseIdx_of_length_le (List.getElem?_eq_none_iff.mp h0)
      rw [h1]
      exact ⟨s, rfl, l, e1, e2, hok, his⟩
    | some t =>
      obtain ⟨x, x1, rfl, x3⟩ := oitem_get e1 e2 ht
      have s1 := oitemsFoot_erase Λ x1
      obtain ⟨h', a1, a2⟩ := Λ.destroy s.heap x.t x.m x.W (oitemsFoot Λ (l.eraseIdx i)) (hok x (List.mem_of_getElem? x1)) (his.cast s1)
      simp only [a1, ok_bind]
      exact ⟨_, rfl, l.eraseIdx i, by rw [em, e1], by rw [em, e2], fun x hx => hok x (List.mem_of_mem_eraseIdx hx), a2⟩

theorem ObjClass.exec_ok : ∀ (prog : List (OCmd Op)) {ms : List M} {s : OSt T}, OInv Λ ms s → S.Valid P ms prog →
    ∃ s', C.exec s prog = .ok (s', (S.exec ms prog).2) ∧ OInv Λ (S.exec ms prog).1 s' := by
  intro prog
  induction prog with
  | nil => intro ms s hI _; exact ⟨s, rfl, hI⟩
  | cons c prog ih =>
    intro ms s hI hv
    obtain ⟨s1, a1, a2⟩ := ObjClass.cmd_ok Λ hI c ⟨hv.1, trivial⟩
    obtain ⟨s2, b1, b2⟩ := ih a2 hv.2
    refine ⟨s2, ?_, b2⟩
    simp only [ObjClass.exec, a1, ok_bind, b1, pure_eq_ok]
    rfl

theorem OInv.start : OInv Λ [] { heap := Heap.empty, objs := [] } :=
  ⟨[], rfl, rfl, fun _ h => absurd h List.not_mem_nil, Heap.Is.empty.cast (by simp [oitemsFoot])⟩

theorem ObjClass.destroyItems_ok : ∀ (l : List (OItem Λ.View T M)) (h : Heap) (R : Foot), (∀ x ∈ l, Λ.Of x.W x.t x.m) → h.Is (oitemsFoot Λ l + R) →
    ∃ h', C.destroyAll h (l.map OItem.t) = .ok h' ∧ h'.Is R := by
  intro l
  induction l with
  | nil => intro h R _ hI; exact ⟨h, rfl, hI.cast (by simp [oitemsFoot])⟩
  | cons x l ih =>
    intro h R hok hI
    obtain ⟨h1, a1, a2⟩ := ih h (Λ.foot x.W + R) (fun y hy => hok y (List.mem_cons_of_mem _ hy)) (hI.cast (by
      simp only [oitemsFoot, List.map_cons, List.sum_cons]; ac_rfl))
    obtain ⟨h2, b1, b2⟩ := Λ.destroy h1 x.t x.m x.W R (hok x List.mem_cons_self) a2
    exact ⟨h2, by simp only [List.map_cons, ObjClass.destroyAll, a1, ok_bind, b1], b2⟩

/-- destroying all objects leaves an empty heap -/
theorem OInv.destroyAll {ms : List M} {s : OSt T} (hI : OInv Λ ms s) : ∃ h, C.destroyAll s.heap s.objs = .ok h ∧ ∀ a, h.mem a = none := by
  obtain ⟨l, e1, -, hok, his⟩ := hI
  obtain ⟨h, a1, a2⟩ := ObjClass.destroyItems_ok Λ l s.heap 0 hok (his.cast (by simp))
  rw [e1] at a1
  refine ⟨h, a1, fun a => ?_⟩
  cases hm : h.mem a with
  | none => rfl
  | some b => exact absurd ((a2.mem a b).mp hm) (by simp)

end SC.Own
