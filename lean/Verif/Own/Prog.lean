import Verif.Own.Sep
/-!
# Programs over tables that own memory

The same for all classes of tables that can be swapped, move-assigned and destroyed: if every function of the class keeps the blocks of the table
apart from all others, so do programs.
-/
namespace SC.Own

/-- The result satisfies `P`, or the fault is one of `E`. -/
def Out (E : Fault → Prop) {α : Type} (r : Res α) (P : α → Prop) : Prop := match r with
  | .ok x => P x
  | .error e => E e

variable {E D : Fault → Prop}

theorem Out.bind {α β : Type} {r : Res α} {P : α → Prop} {Q : β → Prop} {f : α → Res β} (h : Out E r P) (hf : ∀ x, P x → Out E (f x) Q) :
    Out E (r >>= f) Q := by
  cases r with
  | ok x => exact hf x h
  | error e => exact h

theorem Out.of_ok {α : Type} {r : Res α} {P : α → Prop} (h : ∃ x, r = .ok x ∧ P x) : Out E r P := by
  obtain ⟨x, rfl, hx⟩ := h
  exact hx

theorem Out.weaken {α : Type} {r : Res α} {P : α → Prop} (h : Out D r P) (hDE : ∀ e, D e → E e) : Out E r P := by
  cases r with
  | ok x => exact h
  | error e => exact hDE e h

theorem Out.mono {α : Type} {r : Res α} {P Q : α → Prop} (h : Out E r P) (hPQ : ∀ x, P x → Q x) : Out E r Q := by
  cases r with
  | ok x => exact hPQ x h
  | error e => exact h

theorem Out.foldlM {α β : Type} {f : β → α → Res β} {P : β → Prop} : ∀ (l : List α) {s : β}, P s → (∀ s x, x ∈ l → P s → Out E (f s x) P) →
    Out E (l.foldlM f s) P := by
  intro l
  induction l with
  | nil => intro s hs _; exact hs
  | cons x l ih =>
    intro s hs hf
    rw [List.foldlM_cons]
    exact (hf s x List.mem_cons_self hs).bind (fun s' hs' => ih hs' (fun s x hx => hf s x (List.mem_cons_of_mem _ hx)))

/-- the functions of a class of tables; `call` has a bound for the depth of the recursion; `moveAssign` and `swap` are for different objects and
give both; `selfMove` is `x = std::move(x)`.  (`x.swap(x)` does nothing.) -/
structure TabClass (T Op : Type) where
  new : T
  call : Nat → Heap → T → Op → Res (T × Heap)
  swap : Heap → T → T → Res (T × T × Heap)
  moveAssign : Heap → T → T → Res (T × T × Heap)
  selfMove : Heap → T → Res (T × Heap)
  destroy : Heap → T → Res Heap

/-- statements of a program; a statement about a table that does not exist does nothing -/
inductive TCmd (Op : Type)
  | new
  | call (i : Nat) (op : Op)
  | swap (i j : Nat)
  | moveAssign (i j : Nat)
  | destroy (i : Nat)

variable {T Op : Type} (C : TabClass T Op)

/-- heap and tables -/
structure TSt (T : Type) where
  heap : Heap
  tabs : List T

def TCmd.run (f : Nat) (s : TSt T) : TCmd Op → Res (TSt T)
  | .new => .ok { s with tabs := s.tabs ++ [C.new] }
  | .call i op => match s.tabs[i]? with
    | none => .ok s
    | some t => do
      let (t, h) ← C.call f s.heap t op
      return { heap := h, tabs := s.tabs.set i t }
  | .swap i j => if i = j then .ok s else match s.tabs[i]?, s.tabs[j]? with
    | some a, some b => do
      let (a, b, h) ← C.swap s.heap a b
      return { heap := h, tabs := (s.tabs.set i a).set j b }
    | _, _ => .ok s
  | .moveAssign i j => if i = j then (match s.tabs[i]? with
      | none => .ok s
      | some t => do
        let (t, h) ← C.selfMove s.heap t
        return { heap := h, tabs := s.tabs.set i t })
    else match s.tabs[i]?, s.tabs[j]? with
    | some t, some o => do
      let (t, o, h) ← C.moveAssign s.heap t o
      return { heap := h, tabs := (s.tabs.set i t).set j o }
    | _, _ => .ok s
  | .destroy i => match s.tabs[i]? with
    | none => .ok s
    | some t => do
      let h ← C.destroy s.heap t
      return { heap := h, tabs := s.tabs.eraseIdx i }

/-- a program, started with nothing -/
def TabClass.run (f : Nat) (prog : List (TCmd Op)) : Res (TSt T) := prog.foldlM (TCmd.run C f) { heap := Heap.empty, tabs := [] }

/-- all tables are destroyed, last one first -/
def TabClass.destroyAll (h : Heap) : List T → Res Heap
  | [] => .ok h
  | t :: ts => do
    let h ← TabClass.destroyAll h ts
    C.destroy h t

/-- which tables may be used; `m` tells whether this includes tables that were moved from -/
def TCmd.flow (m : Bool) (us : List Bool) : TCmd Op → Option (List Bool)
  | .new => some (us ++ [true])
  | .call i _ => if us[i]? = some false then none else some us
  | .swap i j => if i = j then some us else match us[i]?, us[j]? with
    | some a, some b => some ((us.set i b).set j a)
    | _, _ => some us
  | .moveAssign i j => if i = j then some us else match us[i]?, us[j]? with
    | some _, some b => some ((us.set i b).set j m)
    | _, _ => some us
  | .destroy i => some (us.eraseIdx i)

/-- only tables that may be used get calls -/
def MayUse (m : Bool) (us : List Bool) : List (TCmd Op) → Prop
  | [] => True
  | s :: prog => ∃ us', s.flow m us = some us' ∧ MayUse m us' prog

/-- every call in the program satisfies `P` -/
def TCmd.All (P : Op → Prop) : TCmd Op → Prop
  | .call _ op => P op
  | _ => True

/-- The functions respect ownership: `Of W t` says that the blocks described by `W` belong to the object `t`.  `E` are the possible faults, `D` those of
the destructor; `f` is the bound for the depth of the recursion. -/
structure TabLaws (f : Nat) (E D : Fault → Prop) (m : Bool) (Valid Keeps : Op → Prop) where
  View : Type
  foot : View → Foot
  Of : View → T → Prop
  Usable : View → T → Prop
  Clean : View → T → Prop
  new : ∃ W, Of W C.new ∧ Usable W C.new ∧ Clean W C.new ∧ foot W = 0
  call : ∀ (h : Heap) (t : T) (op : Op) (W : View) (R : Foot), Of W t → Usable W t → h.Is (foot W + R) → Valid op →
    Out E (C.call f h t op) (fun s => ∃ W' L, Of W' s.1 ∧ Usable W' s.1 ∧ s.2.Is (foot W' + (L + R)) ∧ (Clean W t → Keeps op → Clean W' s.1 ∧ L = 0))
  swap : ∀ h a b, C.swap h a b = .ok (b, a, h)
  moveAssign : ∀ (h : Heap) (t o : T) (W W' : View) (R : Foot), Of W t → Of W' o → h.Is (foot W + (foot W' + R)) →
    Out E (C.moveAssign h t o) (fun s => ∃ V V', Of V s.1 ∧ Of V' s.2.1 ∧ s.2.2.Is (foot V + (foot V' + R)) ∧ (Usable W' o → Usable V s.1) ∧
      (m = true → Usable V' s.2.1) ∧ (Clean W t → Clean W' o → Clean V s.1 ∧ Clean V' s.2.1))
  selfMove : ∀ (h : Heap) (t : T) (W : View) (R : Foot), Of W t → h.Is (foot W + R) →
    Out E (C.selfMove h t) (fun s => ∃ V, Of V s.1 ∧ s.2.Is (foot V + R) ∧ (Usable W t → Usable V s.1) ∧ (Clean W t → Clean V s.1))
  destroy : ∀ (h : Heap) (t : T) (W : View) (R : Foot), Of W t → h.Is (foot W + R) → Out D (C.destroy h t) (fun h' => h'.Is R)
  sub : ∀ e, D e → E e

variable {C} {f : Nat} {m : Bool} {Valid Keeps : Op → Prop} (Λ : TabLaws C f E D m Valid Keeps)

/-- a table, its blocks, and whether it may be used -/
structure TItem (V T : Type) where
  t : T
  W : V
  u : Bool

def TItem.OK (clean : Prop) (x : TItem Λ.View T) : Prop := Λ.Of x.W x.t ∧ (x.u = true → Λ.Usable x.W x.t) ∧ (clean → Λ.Clean x.W x.t)

def titemsFoot (l : List (TItem Λ.View T)) : Foot := (l.map (fun x => Λ.foot x.W)).sum

/-- the tables own their blocks; `L` are the lost ones -/
def TInv (clean : Prop) (us : List Bool) (s : TSt T) : Prop :=
  ∃ (l : List (TItem Λ.View T)) (L : Foot), l.map TItem.t = s.tabs ∧ l.map TItem.u = us ∧ (∀ x ∈ l, x.OK Λ clean) ∧
    s.heap.Is (titemsFoot Λ l + L) ∧ (clean → L = 0)

theorem titemsFoot_set {i : Nat} {l : List (TItem Λ.View T)} {x : TItem Λ.View T} (hx : l[i]? = some x) :
    ∃ S, titemsFoot Λ l = Λ.foot x.W + S ∧ ∀ y, titemsFoot Λ (l.set i y) = Λ.foot y.W + S :=
  sum_set (fun x : TItem Λ.View T => Λ.foot x.W) l i x hx

theorem titemsFoot_append (l : List (TItem Λ.View T)) (x : TItem Λ.View T) : titemsFoot Λ (l ++ [x]) = Λ.foot x.W + titemsFoot Λ l := by
  simp only [titemsFoot, List.map_append, List.map_cons, List.map_nil, List.sum_append, List.sum_cons, List.sum_nil, add_zero]
  ac_rfl

theorem titemsFoot_erase : ∀ {l : List (TItem Λ.View T)} {i : Nat} {x : TItem Λ.View T}, l[i]? = some x →
    titemsFoot Λ l = Λ.foot x.W + titemsFoot Λ (l.eraseIdx i) := by
  intro l
  induction l with
  | nil => intro i x h; simp at h
  | cons y l ih =>
    intro i x h
    cases i with
    | zero =>
      simp only [List.getElem?_cons_zero, Option.some.injEq] at h
      subst h
      rfl
    | succ i =>
      have := ih (i := i) h
      simp only [titemsFoot, List.map_cons, List.sum_cons, List.eraseIdx_cons_succ] at this ⊢
      rw [this]
      ac_rfl

theorem titemsFoot_set2 {i j : Nat} {l : List (TItem Λ.View T)} {x y : TItem Λ.View T} (hx : l[i]? = some x) (hy : l[j]? = some y) (hij : i ≠ j) :
    ∃ S, titemsFoot Λ l = Λ.foot x.W + (Λ.foot y.W + S) ∧
      ∀ x' y', titemsFoot Λ ((l.set i x').set j y') = Λ.foot x'.W + (Λ.foot y'.W + S) := by
  obtain ⟨W0, -, -, -, z0⟩ := Λ.new
  obtain ⟨S, s1, s2⟩ := titemsFoot_set Λ hx
  have hy' : ∀ x', (l.set i x')[j]? = some y := fun x' => by rw [List.getElem?_set_ne hij, hy]
  obtain ⟨S'', u1, u2⟩ := titemsFoot_set Λ (hy' ⟨x.t, W0, true⟩)
  have e : S = Λ.foot y.W + S'' := by
    rw [s2] at u1
    simpa only [z0, zero_add] using u1
  refine ⟨S'', by rw [s1, e], fun x' y' => ?_⟩
  obtain ⟨T', w1, w2⟩ := titemsFoot_set Λ (hy' x')
  rw [w2]
  rw [s2, e] at w1
  have : T' = Λ.foot x'.W + S'' := by
    refine (add_left_cancel (a := Λ.foot y.W) ?_).symm
    rw [← w1]; ac_rfl
  rw [this]; ac_rfl

theorem titem_get {V : Type} {i : Nat} {l : List (TItem V T)} {ts : List T} (hl : l.map TItem.t = ts) {t : T} (ht : ts[i]? = some t) : ∃ x : TItem V T, l[i]? = some x ∧ x.t = t := by
  rw [← hl, List.getElem?_map] at ht
  exact Option.map_eq_some_iff.mp ht

theorem titem_none {V : Type} {i : Nat} {l : List (TItem V T)} {ts : List T} {us : List Bool} (e : l.map TItem.t = ts) (e2 : l.map TItem.u = us) (h : ts[i]? = none) :
    us[i]? = none := by
  rw [← e, List.getElem?_map, Option.map_eq_none_iff] at h
  rw [← e2, List.getElem?_map, h]; rfl

theorem all_set {α : Type} {i : Nat} {P : α → Prop} {l : List α} (hl : ∀ x ∈ l, P x) {y : α} (hy : P y) : ∀ x ∈ l.set i y, P x := by
  intro x hx
  rcases List.mem_or_eq_of_mem_set hx with h | h
  · exact hl x h
  · rw [h]; exact hy

/-- every statement keeps the invariant -/
theorem TCmd.run_ok {clean : Prop} {us us' : List Bool} {s : TSt T} (hI : TInv Λ clean us s) (cmd : TCmd Op) (hv : cmd.All Valid)
    (hk : clean → cmd.All Keeps) (hus : cmd.flow m us = some us') : Out E (cmd.run C f s) (TInv Λ clean us') := by
  obtain ⟨l, L, e1, e2, hok, his, hcl⟩ := hI
  have hlen : l.length = s.tabs.length := by rw [← e1, List.length_map]
  have hlen2 : l.length = us.length := by rw [← e2, List.length_map]
  cases cmd with
  | new =>
    cases hus
    obtain ⟨W0, z1, z2, z3, z4⟩ := Λ.new
    refine ⟨l ++ [⟨C.new, W0, true⟩], L, by simp [e1], by simp [e2], ?_, his.cast ?_, hcl⟩
    · intro x hx
      rcases List.mem_append.mp hx with h | h
      · exact hok x h
      · rw [List.mem_singleton.mp h]
        exact ⟨z1, fun _ => z2, fun _ => z3⟩
    · rw [titemsFoot_append]; simp [z4]
  | call i op =>
    simp only [TCmd.run, TCmd.flow] at hus ⊢
    split at hus
    · cases hus
    next hu =>
    cases hus
    cases ht : s.tabs[i]? with
    | none => exact ⟨l, L, e1, e2, hok, his, hcl⟩
    | some t =>
      obtain ⟨x, x1, x2⟩ := titem_get e1 ht
      obtain ⟨o1, o2, o3⟩ := hok x (List.mem_of_getElem? x1)
      have hxu : x.u = true := by
        cases hh : x.u with
        | true => rfl
        | false => exact absurd (by rw [← e2, List.getElem?_map, x1, Option.map_some, hh]) hu
      subst x2
      obtain ⟨S, s1, s2⟩ := titemsFoot_set Λ x1
      refine (Λ.call s.heap x.t op x.W (S + L) o1 (o2 hxu) (his.cast (by rw [s1]; ac_rfl)) hv).bind ?_
      rintro ⟨t, h⟩ ⟨W, L1, a1, a2, a3, a4⟩
      have hc' : clean → Λ.Clean W t ∧ L1 = 0 := fun hc => a4 (o3 hc) (hk hc)
      refine ⟨l.set i ⟨t, W, true⟩, L1 + L, by rw [List.map_set, e1], ?_, all_set hok ⟨a1, fun _ => a2, fun hc => (hc' hc).1⟩, a3.cast ?_, fun hc => ?_⟩
      · rw [List.map_set, e2]
        have hg : us[i]? = some true := by rw [← e2, List.getElem?_map, x1, Option.map_some, hxu]
        obtain ⟨g1, g2⟩ := List.getElem?_eq_some_iff.mp hg
        conv => rhs; rw [← List.set_getElem_self g1, g2]
      · rw [s2]; ac_rfl
      · rw [hcl hc, (hc' hc).2]; simp
  | swap i j =>
    simp only [TCmd.run, TCmd.flow] at hus ⊢
    by_cases hij : i = j
    · rw [if_pos hij] at hus ⊢; cases hus; exact ⟨l, L, e1, e2, hok, his, hcl⟩
    · rw [if_neg hij] at hus ⊢
      cases hti : s.tabs[i]? with
      | none =>
        rw [titem_none e1 e2 hti] at hus
        cases hus
        exact ⟨l, L, e1, e2, hok, his, hcl⟩
      | some a =>
        obtain ⟨x, x1, rfl⟩ := titem_get e1 hti
        have ux : us[i]? = some x.u := by rw [← e2, List.getElem?_map, x1]; rfl
        rw [ux] at hus
        cases htj : s.tabs[j]? with
        | none =>
          rw [titem_none e1 e2 htj] at hus
          cases hus
          exact ⟨l, L, e1, e2, hok, his, hcl⟩
        | some b =>
          obtain ⟨y, y1, rfl⟩ := titem_get e1 htj
          have uy : us[j]? = some y.u := by rw [← e2, List.getElem?_map, y1]; rfl
          rw [uy] at hus
          cases hus
          obtain ⟨S, s1, s2⟩ := titemsFoot_set2 Λ x1 y1 hij
          simp only [Λ.swap, ok_bind]
          refine ⟨(l.set i y).set j x, L, by rw [List.map_set, List.map_set, e1], by rw [List.map_set, List.map_set, e2],
            all_set (all_set hok (hok y (List.mem_of_getElem? y1))) (hok x (List.mem_of_getElem? x1)), his.cast ?_, hcl⟩
          rw [s1, s2]; ac_rfl
  | moveAssign i j =>
    simp only [TCmd.run, TCmd.flow] at hus ⊢
    by_cases hij : i = j
    · rw [if_pos hij] at hus ⊢
      cases hus
      cases hti : s.tabs[i]? with
      | none => exact ⟨l, L, e1, e2, hok, his, hcl⟩
      | some a =>
        obtain ⟨x, x1, rfl⟩ := titem_get e1 hti
        obtain ⟨o1, o2, o3⟩ := hok x (List.mem_of_getElem? x1)
        obtain ⟨S, s1, s2⟩ := titemsFoot_set Λ x1
        refine (Λ.selfMove s.heap x.t x.W (S + L) o1 (his.cast (by rw [s1]; ac_rfl))).bind ?_
        rintro ⟨t', h'⟩ ⟨V, a1, a2, a3, a4⟩
        refine ⟨l.set i ⟨t', V, x.u⟩, L, by rw [List.map_set, e1], ?_, all_set hok ⟨a1, fun e => a3 (o2 e), fun hc => a4 (o3 hc)⟩, a2.cast ?_, hcl⟩
        · rw [List.map_set, e2]
          have hg : us[i]? = some x.u := by rw [← e2, List.getElem?_map, x1]; rfl
          obtain ⟨g1, g2⟩ := List.getElem?_eq_some_iff.mp hg
          conv => rhs; rw [← List.set_getElem_self g1, g2]
        · rw [s2]; ac_rfl
    · rw [if_neg hij] at hus ⊢
      cases hti : s.tabs[i]? with
      | none =>
        rw [titem_none e1 e2 hti] at hus
        cases hus
        exact ⟨l, L, e1, e2, hok, his, hcl⟩
      | some a =>
        obtain ⟨x, x1, rfl⟩ := titem_get e1 hti
        have ux : us[i]? = some x.u := by rw [← e2, List.getElem?_map, x1]; rfl
        rw [ux] at hus
        cases htj : s.tabs[j]? with
        | none =>
          rw [titem_none e1 e2 htj] at hus
          cases hus
          exact ⟨l, L, e1, e2, hok, his, hcl⟩
        | some b =>
          obtain ⟨y, y1, rfl⟩ := titem_get e1 htj
          have uy : us[j]? = some y.u := by rw [← e2, List.getElem?_map, y1]; rfl
          rw [uy] at hus
          cases hus
          obtain ⟨S, s1, s2⟩ := titemsFoot_set2 Λ x1 y1 hij
          have hx := hok x (List.mem_of_getElem? x1)
          have hy := hok y (List.mem_of_getElem? y1)
          refine (Λ.moveAssign s.heap x.t y.t x.W y.W (S + L) hx.1 hy.1 (his.cast (by rw [s1]; ac_rfl))).bind ?_
          rintro ⟨t', o', h'⟩ ⟨V, V', a1, a2, a3, a4, a5, a6⟩
          have k1 : TItem.OK Λ clean ⟨t', V, y.u⟩ := ⟨a1, fun e => a4 (hy.2.1 e), fun hc => (a6 (hx.2.2 hc) (hy.2.2 hc)).1⟩
          have k2 : TItem.OK Λ clean ⟨o', V', m⟩ := ⟨a2, a5, fun hc => (a6 (hx.2.2 hc) (hy.2.2 hc)).2⟩
          refine ⟨(l.set i ⟨t', V, y.u⟩).set j ⟨o', V', m⟩, L, by rw [List.map_set, List.map_set, e1], by rw [List.map_set, List.map_set, e2],
            all_set (all_set hok k1) k2, a3.cast ?_, hcl⟩
          rw [s2]; ac_rfl
  | destroy i =>
    cases hus
    simp only [TCmd.run]
    cases ht : s.tabs[i]? with
    | none =>
      have : us.eraseIdx i = us := List.eraseIdx_of_length_le (by have := List.getElem?_eq_none_iff.mp ht; omega)
      rw [this]
      exact ⟨l, L, e1, e2, hok, his, hcl⟩
    | some t =>
      obtain ⟨x, x1, x2⟩ := titem_get e1 ht
      obtain ⟨o1, o2, o3⟩ := hok x (List.mem_of_getElem? x1)
      subst x2
      have s1 := titemsFoot_erase Λ x1
      refine ((Λ.destroy s.heap x.t x.W (titemsFoot Λ (l.eraseIdx i) + L) o1 (his.cast (by rw [s1]; ac_rfl))).weaken Λ.sub).bind (fun h' a2 => ?_)
      have em : ∀ {β : Type} (f : TItem Λ.View T → β), (l.eraseIdx i).map f = (l.map f).eraseIdx i := fun f => by
        simp [List.eraseIdx_eq_take_drop_succ, List.map_take, List.map_drop]
      exact ⟨l.eraseIdx i, L, by rw [em, e1], by rw [em, e2], fun x hx => hok x (List.mem_of_mem_eraseIdx hx), a2, hcl⟩

theorem tprog_ok {clean : Prop} : ∀ (prog : List (TCmd Op)) {us : List Bool} {s : TSt T}, TInv Λ clean us s →
    (∀ cmd ∈ prog, cmd.All Valid) → (clean → ∀ cmd ∈ prog, cmd.All Keeps) → MayUse m us prog →
    Out E (prog.foldlM (TCmd.run C f) s) (fun s => ∃ us, TInv Λ clean us s) := by
  intro prog
  induction prog with
  | nil => intro us s hI _ _ _; exact ⟨us, hI⟩
  | cons cmd prog ih =>
    intro us s hI hv hk hu
    obtain ⟨us', u1, u2⟩ := hu
    rw [List.foldlM_cons]
    refine (TCmd.run_ok Λ hI cmd (hv _ List.mem_cons_self) (fun hc => hk hc _ List.mem_cons_self) u1).bind ?_
    intro s' hI'
    exact ih hI' (fun x hx => hv x (List.mem_cons_of_mem _ hx)) (fun hc x hx => hk hc x (List.mem_cons_of_mem _ hx)) u2

theorem TInv.start (clean : Prop) : TInv Λ clean [] { heap := Heap.empty, tabs := [] } :=
  ⟨[], 0, rfl, rfl, fun _ h => absurd h List.not_mem_nil, Heap.Is.empty.cast (by simp [titemsFoot]), fun _ => rfl⟩

theorem TabClass.run_ok {clean : Prop} (prog : List (TCmd Op)) (hv : ∀ cmd ∈ prog, cmd.All Valid)
    (hk : clean → ∀ cmd ∈ prog, cmd.All Keeps) (hu : MayUse m [] prog) : Out E (C.run f prog) (fun s => ∃ us, TInv Λ clean us s) :=
  tprog_ok Λ prog (TInv.start Λ clean) hv hk hu

theorem TabClass.destroyItems_ok : ∀ (l : List (TItem Λ.View T)) (h : Heap) (L : Foot), (∀ x ∈ l, Λ.Of x.W x.t) → h.Is (titemsFoot Λ l + L) →
    Out D (C.destroyAll h (l.map TItem.t)) (fun h' => h'.Is L) := by
  intro l
  induction l with
  | nil => intro h L _ hI; exact hI.cast (by simp [titemsFoot])
  | cons x l ih =>
    intro h L hok hI
    refine (ih h (Λ.foot x.W + L) (fun y hy => hok y (List.mem_cons_of_mem _ hy)) (hI.cast (by
      simp only [titemsFoot, List.map_cons, List.sum_cons]; ac_rfl))).bind (fun h1 a2 => ?_)
    exact Λ.destroy h1 x.t x.W L (hok x List.mem_cons_self) a2

theorem TInv.destroyAll {Λ : TabLaws C f E D m Valid Keeps} (hI : TInv Λ clean us s) :
    Out D (C.destroyAll s.heap s.tabs) (fun h => clean → ∀ a, h.mem a = none) := by
  obtain ⟨l, L, e1, -, hok, his, hcl⟩ := hI
  have := TabClass.destroyItems_ok Λ l s.heap L (fun x hx => (hok x hx).1) his
  rw [e1] at this
  refine this.mono (fun h a2 hc a => ?_)
  rw [hcl hc] at a2
  cases hm : h.mem a with
  | none => rfl
  | some b => exact absurd ((a2.mem a b).mp hm) (by simp)

end SC.Own
