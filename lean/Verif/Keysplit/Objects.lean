import Verif.Keysplit.Proofs
/-!
# Adapters as objects

The class `keysplit_adapter` has pointers to its tables, a constructor that creates them and a destructor that deletes them, keysplit_adapter.hpp:24, 52-61.
It declares neither copy nor move functions, so C++ generates a copy constructor and a copy assignment that copy the pointers; as there is a destructor,
no move functions are generated and `std::move` copies as well.

Only the table objects created by `new map_type` are shown; the memory that belongs to a table is the subject of `Own`.
-/
namespace SC
variable {M : Type}

/-- table objects by address, the next free address, and `m_maps` of each adapter -/
structure KsHeap (M : Type) where
  mem : Nat → Option M
  next : Nat
  ads : List (List Nat)

/-- `*m_maps[i]` with the address; the table may have been deleted -/
def ksDeref (mem : Nat → Option M) (p : List Nat) (i : Nat) : Res (Nat × M) :=
  match p[i]? with
  | none => .error .oob
  | some a => match mem a with
    | none => .error .undef
    | some m => .ok (a, m)

/-- calls with a key, keysplit_adapter.hpp:86-113 -/
def ksKeyed (mc : MapClass M) (c : KsCfg) (mem : Nat → Option M) (p : List Nat) (k : Nat) (op : MapOp) : Res ((Nat → Option M) × Ans) := do
  let (a, m) ← ksDeref mem p (c.slot k)
  let (m, r) ← mc.step m op
  return (upd mem a (some m), r)

/-- the loops of `shrink_to_fit()` and `clear()`, keysplit_adapter.hpp:40-50 -/
def ksEach (mc : MapClass M) (op : MapOp) : List Nat → (Nat → Option M) → Res (Nat → Option M)
  | [], mem => .ok mem
  | a :: p, mem => match mem a with
    | none => .error .undef
    | some m => do
      let (m, _) ← mc.step m op
      ksEach mc op p (upd mem a (some m))

/-- the loop in `size()`, keysplit_adapter.hpp:74-77 -/
def ksSum (mc : MapClass M) (mem : Nat → Option M) : List Nat → Nat → Res Nat
  | [], s => .ok s
  | a :: p, s => match mem a with
    | none => .error .undef
    | some m => ksSum mc mem p (s + mc.size m)

/-- the calls, through the pointers `p` -/
def KsCfg.callAt (mc : MapClass M) (c : KsCfg) (mem : Nat → Option M) (p : List Nat) : KsOp → Res ((Nat → Option M) × Ans)
  | .get k => ksKeyed mc c mem p k (.get k)
  | .assign k v => ksKeyed mc c mem p k (.assign k v)
  | .find k => ksKeyed mc c mem p k (.find k)
  | .count k => ksKeyed mc c mem p k (.count k)
  | .erase k => ksKeyed mc c mem p k (.erase k)
  | .size => do
    let n ← ksSum mc mem p 0
    return (mem, .num n)
  | .shrink => do
    let mem ← ksEach mc .shrink p mem
    return (mem, .none)
  | .clear => do
    let mem ← ksEach mc .clear p mem
    return (mem, .none)

/-- the destructor, keysplit_adapter.hpp:57-61: `delete m_maps[i]` for all `i` -/
def ksDelete : List Nat → (Nat → Option M) → Res (Nat → Option M)
  | [], mem => .ok mem
  | a :: p, mem => match mem a with
    | none => .error .doubleFree
    | some _ => ksDelete p (upd mem a none)

/-- statements of a program; a statement about an adapter that does not exist does nothing -/
inductive KsCmd
  /-- construct another adapter -/
  | new
  /-- call a function of adapter `i` -/
  | call (i : Nat) (op : KsOp)
  /-- construct another adapter as a copy of adapter `i`, also from `std::move` -/
  | copy (i : Nat)
  /-- `xi = xj` and `xi = std::move(xj)` -/
  | assign (i j : Nat)
  /-- the destructor of adapter `i` -/
  | destroy (i : Nat)
  deriving DecidableEq

/-- one statement: constructor keysplit_adapter.hpp:52-56, generated copy functions, destructor -/
def KsHeap.cmd (mc : MapClass M) (c : KsCfg) (s : KsHeap M) : KsCmd → Res (KsHeap M × List Ans)
  | .new => .ok ({ mem := fun a => if s.next ≤ a ∧ a < s.next + c.len then some (c.new mc (a - s.next)) else s.mem a
                   next := s.next + c.len
                   ads := s.ads ++ [List.range' s.next c.len] }, [])
  | .call i op => match s.ads[i]? with
    | none => .ok (s, [])
    | some p => do
      let (mem, r) ← c.callAt mc s.mem p op
      return ({ s with mem := mem }, [r])
  | .copy i => match s.ads[i]? with
    | none => .ok (s, [])
    | some p => .ok ({ s with ads := s.ads ++ [p] }, [])
  | .assign i j => match s.ads[i]?, s.ads[j]? with
    | some _, some p => .ok ({ s with ads := s.ads.set i p }, [])
    | _, _ => .ok (s, [])
  | .destroy i => match s.ads[i]? with
    | none => .ok (s, [])
    | some p => do
      let mem ← ksDelete p s.mem
      return ({ s with mem := mem, ads := s.ads.eraseIdx i }, [])

/-- a program; gives the answers to the calls -/
def KsHeap.exec (mc : MapClass M) (c : KsCfg) (s : KsHeap M) : List KsCmd → Res (KsHeap M × List Ans)
  | [] => .ok (s, [])
  | x :: prog => do
    let (s, as) ← s.cmd mc c x
    let (s, bs) ← KsHeap.exec mc c s prog
    return (s, as ++ bs)

/-- nothing exists at the start -/
def KsHeap.empty : KsHeap M := ⟨fun _ => none, 0, []⟩

/-- all adapters are destroyed -/
def KsHeap.destroyAll (s : KsHeap M) : Res (Nat → Option M) := s.ads.foldlM (fun mem p => ksDelete p mem) s.mem

/-! ## What the statements should do -/

/-- contents of the adapters and answers, if copies were independent -/
def ksSpecCmd (tr : Nat → Nat) (ms : List FMap) : KsCmd → List FMap × List Ans
  | .new => (ms ++ [FMap.empty], [])
  | .call i op => match ms[i]? with
    | none => (ms, [])
    | some m => (ms.set i (m.step tr op.call).1, [(m.step tr op.call).2])
  | .copy i => match ms[i]? with
    | none => (ms, [])
    | some m => (ms ++ [m], [])
  | .assign i j => match ms[i]?, ms[j]? with
    | some _, some m => (ms.set i m, [])
    | _, _ => (ms, [])
  | .destroy i => (ms.eraseIdx i, [])

def ksSpec (tr : Nat → Nat) (ms : List FMap) : List KsCmd → List FMap × List Ans
  | [] => (ms, [])
  | x :: prog =>
    let r := ksSpecCmd tr ms x
    let q := ksSpec tr r.1 prog
    (q.1, r.2 ++ q.2)

/-- keys are at most `max_key()` -/
def KsCmd.Valid (c : KsCfg) : KsCmd → Prop
  | .call _ op => KsValid c op
  | _ => True

/-- no adapter is copied -/
def KsCmd.Single : KsCmd → Prop
  | .copy _ | .assign _ _ => False
  | _ => True

/-! ## Proofs -/

variable {mc : MapClass M} {c : KsCfg} {tr : Nat → Nat} {R : Nat → M → FMap → Prop} {valid : Nat → MapOp → Prop}
  {mem mem' : Nat → Option M} {p : List Nat} {ms ms' : Nat → M}

/-- the pointers lead to these tables -/
def KsAt (mem : Nat → Option M) (i : Nat) (p : List Nat) (ms : Nat → M) : Prop := ∀ j a, p[j]? = some a → mem a = some (ms (i + j))

theorem KsAt.tail {i a : Nat} (h : KsAt mem i (a :: p) ms) : KsAt mem (i + 1) p ms := fun j b hb => by
  have := h (j + 1) b hb
  rwa [show i + (j + 1) = i + 1 + j by omega] at this

theorem ksAll_below (op : MapOp) : ∀ n i (ms : Nat → M), ksAll mc op n i ms = .ok ms' → ∀ j, j < i → ms' j = ms j := by
  intro n
  induction n with
  | zero => intro i ms h j _; cases h; rfl
  | succ n ih =>
    intro i ms h j hj
    simp only [ksAll] at h
    cases hs : mc.step (ms i) op with
    | error e => rw [hs] at h; cases h
    | ok r =>
      rw [hs, ok_bind] at h
      rw [ih (i + 1) _ h j (by omega), upd_other _ _ (by omega)]

theorem ksEach_ok (op : MapOp) : ∀ (p : List Nat) (i : Nat) (mem : Nat → Option M) (ms : Nat → M), KsAt mem i p ms → p.Nodup → ksAll mc op p.length i ms = .ok ms' →
    ∃ mem', ksEach mc op p mem = .ok mem' ∧ (∀ a, a ∉ p → mem' a = mem a) ∧ KsAt mem' i p ms' := by
  intro p
  induction p with
  | nil =>
    intro i mem ms _ _ h
    exact ⟨mem, rfl, fun _ _ => rfl, fun j a hj => by simp at hj⟩
  | cons a p ih =>
    intro i mem ms h hn hs
    obtain ⟨ha, hn⟩ := List.nodup_cons.mp hn
    have h0 := h 0 a rfl
    simp only [Nat.add_zero] at h0
    simp only [List.length_cons, ksAll] at hs
    simp only [ksEach, h0]
    cases hr : mc.step (ms i) op with
    | error e => rw [hr] at hs; cases hs
    | ok r =>
      rw [hr, ok_bind] at hs
      obtain ⟨m', x⟩ := r
      have hne : ∀ b, b ∈ p → b ≠ a := fun b hb e => ha (e ▸ hb)
      have h1 : KsAt (upd mem a (some m')) (i + 1) p (upd ms i m') := fun j b hb => by
        rw [upd_other _ _ (hne b (List.mem_of_getElem? hb)), upd_other _ _ (by omega)]
        exact h.tail j b hb
      obtain ⟨mem', e1, e2, e3⟩ := ih (i + 1) _ _ h1 hn hs
      refine ⟨mem', by rw [ok_bind]; exact e1, fun b hb => ?_, fun j b hb => ?_⟩
      · rw [List.mem_cons, not_or] at hb
        rw [e2 b hb.2, upd_other _ _ hb.1]
      · cases j with
        | zero =>
          cases hb
          rw [e2 a ha, upd_same, Nat.add_zero, ksAll_below op _ _ _ hs i (by omega), upd_same]
        | succ j =>
          have := e3 j b hb
          rwa [show i + 1 + j = i + (j + 1) by omega] at this

theorem ksSum_ok : ∀ (p : List Nat) (i s : Nat), KsAt mem i p ms →
    ksSum mc mem p s = .ok ((List.range' i p.length).foldl (fun s i => s + mc.size (ms i)) s) := by
  intro p
  induction p with
  | nil => intro i s _; rfl
  | cons a p ih =>
    intro i s h
    have h0 := h 0 a rfl
    simp only [Nat.add_zero] at h0
    simp only [ksSum, h0, List.length_cons, List.range'_succ, List.foldl_cons]
    exact ih (i + 1) _ h.tail

/-- a call through the pointers does what the call does; other tables are not touched -/
theorem callAt_ok {op : KsOp} {r : Ans} (h : KsAt mem 0 p ms) (hl : p.length = c.len) (hn : p.Nodup) (hs : c.step mc ms op = .ok (ms', r)) :
    ∃ mem', c.callAt mc mem p op = .ok (mem', r) ∧ (∀ a, a ∉ p → mem' a = mem a) ∧ KsAt mem' 0 p ms' := by
  have keyed : ∀ k o, c.route mc ms k o = .ok (ms', r) →
      ∃ mem', ksKeyed mc c mem p k o = .ok (mem', r) ∧ (∀ a, a ∉ p → mem' a = mem a) ∧ KsAt mem' 0 p ms' := by
    intro k o hs
    unfold KsCfg.route at hs
    by_cases hk : c.slot k < c.len
    · rw [if_pos hk] at hs
      have hi : p[c.slot k]? = some (p[c.slot k]'(by omega)) := List.getElem?_eq_getElem _
      generalize p[c.slot k]'(by omega) = a at hi
      have h0 := h _ a hi
      rw [Nat.zero_add] at h0
      cases hr : mc.step (ms (c.slot k)) o with
      | error e => rw [hr] at hs; cases hs
      | ok x =>
        rw [hr, ok_bind] at hs
        cases hs
        refine ⟨upd mem a (some x.1), ?_, fun b hb => ?_, fun j b hb => ?_⟩
        · simp only [ksKeyed, ksDeref, hi, h0, ok_bind, hr]
          rfl
        · rw [upd_other _ _ (fun e : b = a => hb (e ▸ List.mem_of_getElem? hi))]
        · rw [Nat.zero_add]
          by_cases e : j = c.slot k
          · subst e
            cases hi.symm.trans hb
            rw [upd_same, upd_same]
          · have : b ≠ a := by
              rintro rfl
              obtain ⟨h1, h2⟩ := List.getElem?_eq_some_iff.mp hi
              obtain ⟨h3, h4⟩ := List.getElem?_eq_some_iff.mp hb
              exact e ((List.getElem_inj hn).mp (h4.trans h2.symm))
            rw [upd_other _ _ this, upd_other _ _ e, h j b hb, Nat.zero_add]
    · rw [if_neg hk] at hs; cases hs
  have each : ∀ o : MapOp, (do let ms ← ksAll mc o c.len 0 ms; return (ms, Ans.none) : Res _) = .ok (ms', r) →
      ∃ mem', (do let mem ← ksEach mc o p mem; return (mem, Ans.none) : Res _) = .ok (mem', r) ∧ (∀ a, a ∉ p → mem' a = mem a) ∧ KsAt mem' 0 p ms' := by
    intro o hs
    cases ha : ksAll mc o c.len 0 ms with
    | error e => rw [ha] at hs; cases hs
    | ok x =>
      rw [ha, ok_bind] at hs
      cases hs
      rw [← hl] at ha
      obtain ⟨mem', e1, e2, e3⟩ := ksEach_ok o p 0 mem ms h hn ha
      exact ⟨mem', by rw [e1]; rfl, e2, e3⟩
  cases op with
  | get k => exact keyed k _ hs
  | assign k v => exact keyed k _ hs
  | find k => exact keyed k _ hs
  | count k => exact keyed k _ hs
  | erase k => exact keyed k _ hs
  | size =>
    cases hs
    refine ⟨mem, ?_, fun _ _ => rfl, h⟩
    simp only [KsCfg.callAt, ksSum_ok p 0 0 h, ok_bind, hl, ← List.range_eq_range']
    rfl
  | shrink => exact each .shrink hs
  | clear => exact each .clear hs

/-- an adapter, its tables and its contents -/
structure KsItem (M : Type) where
  p : List Nat
  ms : Nat → M
  m : FMap

/-- the adapter behaves like the map `x.m` -/
structure KsItem.OK (c : KsCfg) (R : Nat → M → FMap → Prop) (mem : Nat → Option M) (x : KsItem M) : Prop where
  len : x.p.length = c.len
  at_ : KsAt mem 0 x.p x.ms
  inv : ∃ f, KsInv c R x.ms x.m f

def ksPtrs (l : List (KsItem M)) : List Nat := (l.map KsItem.p).flatten

/-- the adapters own all tables, each table belongs to one adapter -/
structure KsOwn (c : KsCfg) (R : Nat → M → FMap → Prop) (s : KsHeap M) (l : List (KsItem M)) : Prop where
  ads : s.ads = l.map KsItem.p
  ok : ∀ x ∈ l, x.OK c R s.mem
  nodup : (ksPtrs l).Nodup
  mem : ∀ a, s.mem a ≠ none ↔ a ∈ ksPtrs l
  next : ∀ a ∈ ksPtrs l, a < s.next

theorem KsOwn.empty : KsOwn c R KsHeap.empty [] :=
  ⟨rfl, by simp, by simp [ksPtrs], by simp [KsHeap.empty, ksPtrs], by simp [ksPtrs]⟩

theorem ksPtrs_append (l : List (KsItem M)) (x : KsItem M) : ksPtrs (l ++ [x]) = ksPtrs l ++ x.p := by simp [ksPtrs]

theorem ksPtrs_set {i : Nat} {l : List (KsItem M)} {x y : KsItem M} (h : l[i]? = some x) (hp : y.p = x.p) : ksPtrs (l.set i y) = ksPtrs l := by
  unfold ksPtrs
  rw [List.map_set, hp]
  congr 1
  obtain ⟨h1, h2⟩ := List.getElem?_eq_some_iff.mp h
  rw [← h2, show l[i].p = (l.map KsItem.p)[i]'(by simpa using h1) by simp, List.set_getElem_self]

theorem ksPtrs_perm : ∀ {l : List (KsItem M)} {i : Nat} {x : KsItem M}, l[i]? = some x → (ksPtrs l).Perm (x.p ++ ksPtrs (l.eraseIdx i)) := by
  intro l
  induction l with
  | nil => intro i x h; simp at h
  | cons y l ih =>
    intro i x h
    cases i with
    | zero => cases h; exact List.Perm.refl _
    | succ i =>
      have := ih (i := i) h
      simp only [ksPtrs, List.map_cons, List.flatten_cons, List.eraseIdx_cons_succ] at this ⊢
      refine (this.append_left y.p).trans ?_
      rw [← List.append_assoc, ← List.append_assoc]
      exact (List.perm_append_comm).append_right _

/-- the pointers of different adapters are different -/
theorem KsOwn.apart {s : KsHeap M} {l : List (KsItem M)} (h : KsOwn c R s l) {i : Nat} {x : KsItem M} (hx : l[i]? = some x) :
    x.p.Nodup ∧ ∀ a ∈ x.p, a ∉ ksPtrs (l.eraseIdx i) := by
  have := (ksPtrs_perm hx).nodup_iff.mp h.nodup
  rw [List.nodup_append] at this
  exact ⟨this.1, fun a ha hb => this.2.2 a ha a hb rfl⟩

theorem mem_ksPtrs_erase {i : Nat} {l : List (KsItem M)} {y : KsItem M} {j : Nat} (hy : l[j]? = some y) (hij : j ≠ i) {a : Nat} (ha : a ∈ y.p) :
    a ∈ ksPtrs (l.eraseIdx i) := by
  refine List.mem_flatten.mpr ⟨y.p, List.mem_map.mpr ⟨y, ?_, rfl⟩, ha⟩
  exact List.mem_eraseIdx_iff_getElem?.mpr ⟨j, hij, hy⟩

theorem KsItem.OK.frame {x : KsItem M} (h : x.OK c R mem) (hf : ∀ a ∈ x.p, mem' a = mem a) : x.OK c R mem' :=
  ⟨h.len, fun j a ha => by rw [hf a (List.mem_of_getElem? ha)]; exact h.at_ j a ha, h.inv⟩

theorem ksDelete_ok : ∀ (p : List Nat) (mem : Nat → Option M), p.Nodup → (∀ a ∈ p, mem a ≠ none) →
    ∃ mem', ksDelete p mem = .ok mem' ∧ (∀ a, a ∉ p → mem' a = mem a) ∧ ∀ a ∈ p, mem' a = none := by
  intro p
  induction p with
  | nil => intro mem _ _; exact ⟨mem, rfl, fun _ _ => rfl, by simp⟩
  | cons a p ih =>
    intro mem hn h
    obtain ⟨ha, hn⟩ := List.nodup_cons.mp hn
    obtain ⟨m, hm⟩ := Option.ne_none_iff_exists'.mp (h a List.mem_cons_self)
    obtain ⟨mem', e1, e2, e3⟩ := ih (upd mem a none) hn (fun b hb => by
      rw [upd_other _ _ (fun e : b = a => ha (e ▸ hb))]
      exact h b (List.mem_cons_of_mem _ hb))
    refine ⟨mem', by simp only [ksDelete, hm]; exact e1, fun b hb => ?_, fun b hb => ?_⟩
    · rw [List.mem_cons, not_or] at hb
      rw [e2 b hb.2, upd_other _ _ hb.1]
    · rcases List.mem_cons.mp hb with rfl | hb
      · rw [e2 b ha, upd_same]
      · exact e3 b hb

theorem ksDelete_twice (hn : p ≠ []) (h : ∀ a ∈ p, mem a = none) : ksDelete p mem = .error .doubleFree := by
  cases p with
  | nil => exact absurd rfl hn
  | cons a p => simp only [ksDelete, h a List.mem_cons_self]

theorem item_at {l : List (KsItem M)} {s : KsHeap M} (h : KsOwn c R s l) {i : Nat} {p : List Nat} (hp : s.ads[i]? = some p) :
    ∃ x, l[i]? = some x ∧ x.p = p := by
  rw [h.ads, List.getElem?_map] at hp
  exact Option.map_eq_some_iff.mp hp

theorem item_none {l : List (KsItem M)} {s : KsHeap M} (h : KsOwn c R s l) {i : Nat} (hp : s.ads[i]? = none) : l[i]? = none := by
  rw [h.ads, List.getElem?_map] at hp
  simpa using hp

theorem KsOwn.call (hm : 1 ≤ c.maxBits) (hl : 1 ≤ c.len) (hg : ∀ i < c.len, GoodMap mc tr (c.width i) (valid i) (R i))
    (hv : ∀ i < c.len, ∀ op : KsOp, (∀ k, op.key = some k → k < 2 ^ c.width i) → valid i op.call) {s : KsHeap M} {l : List (KsItem M)} (h : KsOwn c R s l)
    {i : Nat} {x : KsItem M} (hx : l[i]? = some x) {op : KsOp} (hop : KsValid c op) :
    ∃ mem' ms', c.callAt mc s.mem x.p op = .ok (mem', (x.m.step tr op.call).2) ∧
      KsOwn c R { s with mem := mem' } (l.set i ⟨x.p, ms', (x.m.step tr op.call).1⟩) := by
  have hxo := h.ok x (List.mem_of_getElem? hx)
  obtain ⟨hn, hap⟩ := h.apart hx
  obtain ⟨f, hf⟩ := hxo.inv
  obtain ⟨ms', f', a1, a2⟩ := hf.step hm hl hg hv op hop
  obtain ⟨mem', b1, b2, b3⟩ := callAt_ok hxo.at_ hxo.len hn a1
  have hpt := ksPtrs_set (y := ⟨x.p, ms', (x.m.step tr op.call).1⟩) hx rfl
  refine ⟨mem', ms', b1, ?_, fun y hy => ?_, by rw [hpt]; exact h.nodup, fun a => ?_, by rw [hpt]; exact h.next⟩
  · show s.ads = _
    rw [h.ads, List.map_set]
    obtain ⟨h1, h2⟩ := List.getElem?_eq_some_iff.mp hx
    rw [← h2, show l[i].p = (l.map KsItem.p)[i]'(by simpa using h1) by simp, List.set_getElem_self]
  · obtain ⟨j, hj⟩ := List.getElem?_of_mem hy
    by_cases e : i = j
    · subst e
      rw [List.getElem?_set_self (List.getElem?_eq_some_iff.mp hx).1] at hj
      cases hj
      exact ⟨hxo.len, b3, f', a2⟩
    · rw [List.getElem?_set_ne e] at hj
      exact (h.ok y (List.mem_of_getElem? hj)).frame (fun a ha => b2 a (fun hb => hap a hb (mem_ksPtrs_erase hj (Ne.symm e) ha)))
  · rw [hpt, ← h.mem a]
    show mem' a ≠ none ↔ _
    by_cases ha : a ∈ x.p
    · have h1 : s.mem a ≠ none := (h.mem a).mpr ((ksPtrs_perm hx).mem_iff.mpr (List.mem_append_left _ ha))
      obtain ⟨j, hj⟩ := List.getElem?_of_mem ha
      have h2 : mem' a ≠ none := by rw [b3 j a hj]; exact Option.some_ne_none _
      exact ⟨fun _ => h1, fun _ => h2⟩
    · rw [b2 a ha]

theorem KsOwn.new (hg : ∀ i < c.len, GoodMap mc tr (c.width i) (valid i) (R i)) {s : KsHeap M} {l : List (KsItem M)} (h : KsOwn c R s l) :
    ∃ s', s.cmd mc c .new = .ok (s', []) ∧ KsOwn c R s' (l ++ [⟨List.range' s.next c.len, c.new mc, FMap.empty⟩]) := by
  have hr : ∀ a, a ∈ List.range' s.next c.len ↔ s.next ≤ a ∧ a < s.next + c.len := fun a => by
    rw [List.mem_range'_1]
  refine ⟨_, rfl, by simp [h.ads], fun y hy => ?_, ?_, fun a => ?_, fun a ha => ?_⟩
  · rcases List.mem_append.mp hy with hy | hy
    · refine (h.ok y hy).frame (fun a ha => ?_)
      have := h.next a (List.mem_flatten.mpr ⟨y.p, List.mem_map.mpr ⟨y, hy, rfl⟩, ha⟩)
      simp only
      rw [if_neg (by omega)]
    · rw [List.mem_singleton.mp hy]
      refine ⟨List.length_range', fun j a ha => ?_, _, KsInv.new hg⟩
      obtain ⟨h1, h2⟩ := List.getElem?_eq_some_iff.mp ha
      rw [List.length_range'] at h1
      rw [List.getElem_range', Nat.one_mul] at h2
      subst h2
      simp only
      rw [if_pos (by omega), Nat.zero_add, Nat.add_sub_cancel_left]
  · rw [ksPtrs_append, List.nodup_append]
    refine ⟨h.nodup, List.nodup_range', fun a ha b hb e => ?_⟩
    have h1 := h.next a ha
    have h2 := (hr b).mp hb
    omega
  · rw [ksPtrs_append, List.mem_append, hr]
    simp only
    by_cases ha : s.next ≤ a ∧ a < s.next + c.len
    · rw [if_pos ha]; simp [ha]
    · rw [if_neg ha, h.mem a]; simp [ha]
  · rw [ksPtrs_append, List.mem_append, hr] at ha
    simp only
    rcases ha with ha | ha
    · have := h.next a ha; omega
    · omega

theorem KsOwn.destroy {s : KsHeap M} {l : List (KsItem M)} (h : KsOwn c R s l) {i : Nat} {x : KsItem M} (hx : l[i]? = some x) :
    ∃ mem', ksDelete x.p s.mem = .ok mem' ∧ (∀ a ∈ x.p, mem' a = none) ∧ KsOwn c R { s with mem := mem', ads := s.ads.eraseIdx i } (l.eraseIdx i) := by
  obtain ⟨hn, hap⟩ := h.apart hx
  have hperm := ksPtrs_perm hx
  obtain ⟨mem', e1, e2, e3⟩ := ksDelete_ok x.p s.mem hn (fun a ha => (h.mem a).mpr (hperm.mem_iff.mpr (List.mem_append_left _ ha)))
  have hsub : ∀ a, a ∈ ksPtrs (l.eraseIdx i) → a ∈ ksPtrs l := fun a ha => hperm.mem_iff.mpr (List.mem_append_right _ ha)
  refine ⟨mem', e1, e3, ?_, fun y hy => ?_, ?_, fun a => ?_, fun a ha => h.next a (hsub a ha)⟩
  · show s.ads.eraseIdx i = _
    rw [h.ads]
    simp [List.eraseIdx_eq_take_drop_succ, List.map_take, List.map_drop]
  · refine (h.ok y (List.mem_of_mem_eraseIdx hy)).frame (fun a ha => e2 a (fun hb => hap a hb ?_))
    exact List.mem_flatten.mpr ⟨y.p, List.mem_map.mpr ⟨y, hy, rfl⟩, ha⟩
  · have := hperm.nodup_iff.mp h.nodup
    rw [List.nodup_append] at this
    exact this.2.1
  · show mem' a ≠ none ↔ _
    by_cases ha : a ∈ x.p
    · rw [e3 a ha]
      exact ⟨fun e => absurd rfl e, fun hb => absurd hb (hap a ha)⟩
    · rw [e2 a ha, h.mem a, hperm.mem_iff, List.mem_append]
      exact ⟨fun e => e.resolve_left ha, .inr⟩

/-- statements that copy no adapter -/
theorem KsOwn.cmd (hm : 1 ≤ c.maxBits) (hl : 1 ≤ c.len) (hg : ∀ i < c.len, GoodMap mc tr (c.width i) (valid i) (R i))
    (hv : ∀ i < c.len, ∀ op : KsOp, (∀ k, op.key = some k → k < 2 ^ c.width i) → valid i op.call) {s : KsHeap M} {l : List (KsItem M)} (h : KsOwn c R s l)
    {x : KsCmd} (hx : x.Valid c) (hs : x.Single) :
    ∃ s' l', s.cmd mc c x = .ok (s', (ksSpecCmd tr (l.map KsItem.m) x).2) ∧ KsOwn c R s' l' ∧ l'.map KsItem.m = (ksSpecCmd tr (l.map KsItem.m) x).1 := by
  cases x with
  | new =>
    obtain ⟨s', h1, h2⟩ := h.new hg
    exact ⟨s', _, h1, h2, by simp [ksSpecCmd]⟩
  | call i op =>
    simp only [KsHeap.cmd, ksSpecCmd]
    cases hp : s.ads[i]? with
    | none =>
      have := item_none h hp
      simp only [List.getElem?_map, this, Option.map_none]
      exact ⟨s, l, rfl, h, rfl⟩
    | some p =>
      obtain ⟨y, hy, rfl⟩ := item_at h hp
      obtain ⟨mem', ms', a1, a2⟩ := h.call hm hl hg hv hy hx
      simp only [List.getElem?_map, hy, Option.map_some, a1, ok_bind]
      exact ⟨_, _, rfl, a2, by rw [List.map_set]⟩
  | copy i => exact hs.elim
  | assign i j => exact hs.elim
  | destroy i =>
    simp only [KsHeap.cmd, ksSpecCmd]
    cases hp : s.ads[i]? with
    | none =>
      have := item_none h hp
      rw [List.eraseIdx_of_length_le (l := l.map KsItem.m) (by simpa using this)]
      exact ⟨s, l, rfl, h, rfl⟩
    | some p =>
      obtain ⟨y, hy, rfl⟩ := item_at h hp
      obtain ⟨mem', e1, _, e3⟩ := h.destroy hy
      simp only [e1, ok_bind]
      exact ⟨_, _, rfl, e3, by simp [List.eraseIdx_eq_take_drop_succ, List.map_take, List.map_drop]⟩

theorem KsOwn.exec (hm : 1 ≤ c.maxBits) (hl : 1 ≤ c.len) (hg : ∀ i < c.len, GoodMap mc tr (c.width i) (valid i) (R i))
    (hv : ∀ i < c.len, ∀ op : KsOp, (∀ k, op.key = some k → k < 2 ^ c.width i) → valid i op.call) : ∀ (prog : List KsCmd) {s : KsHeap M} {l : List (KsItem M)},
    KsOwn c R s l → (∀ x ∈ prog, x.Valid c) → (∀ x ∈ prog, x.Single) →
    ∃ s' l', s.exec mc c prog = .ok (s', (ksSpec tr (l.map KsItem.m) prog).2) ∧ KsOwn c R s' l' ∧ l'.map KsItem.m = (ksSpec tr (l.map KsItem.m) prog).1 := by
  intro prog
  induction prog with
  | nil => intro s l h _ _; exact ⟨s, l, rfl, h, rfl⟩
  | cons x prog ih =>
    intro s l h hx hs
    obtain ⟨s1, l1, a1, a2, a3⟩ := h.cmd hm hl hg hv (hx x List.mem_cons_self) (hs x List.mem_cons_self)
    obtain ⟨s2, l2, b1, b2, b3⟩ := ih a2 (fun y hy => hx y (List.mem_cons_of_mem _ hy)) (fun y hy => hs y (List.mem_cons_of_mem _ hy))
    rw [a3] at b1 b3
    refine ⟨s2, l2, ?_, b2, b3⟩
    simp only [KsHeap.exec, a1, ok_bind, b1, pure_eq_ok]
    rfl

theorem KsOwn.destroyAll : ∀ {l : List (KsItem M)} {s : KsHeap M}, KsOwn c R s l → ∃ mem', s.destroyAll = .ok mem' ∧ ∀ a, mem' a = none := by
  intro l
  induction l with
  | nil =>
    intro s h
    refine ⟨s.mem, by simp [KsHeap.destroyAll, h.ads], fun a => ?_⟩
    have := h.mem a
    simp only [ksPtrs, List.map_nil, List.flatten_nil, List.not_mem_nil, iff_false, ne_eq, Decidable.not_not] at this
    exact this
  | cons x l ih =>
    intro s h
    obtain ⟨mem', e1, _, e3⟩ := h.destroy (i := 0) rfl
    obtain ⟨mem2, f1, f2⟩ := ih e3
    refine ⟨mem2, ?_, f2⟩
    have ha : s.ads = x.p :: l.map KsItem.p := by rw [h.ads]; rfl
    simp only [KsHeap.destroyAll, ha, List.foldlM_cons, e1, ok_bind] at f1 ⊢
    exact f1

theorem KsHeap.exec_append (mc : MapClass M) (c : KsCfg) : ∀ (p q : List KsCmd) (s : KsHeap M),
    s.exec mc c (p ++ q) = (do let (s, as) ← s.exec mc c p; let (s, bs) ← s.exec mc c q; return (s, as ++ bs)) := by
  intro p
  induction p with
  | nil =>
    intro q s
    simp only [List.nil_append, KsHeap.exec, ok_bind]
    cases s.exec mc c q with
    | error e => rfl
    | ok r => rfl
  | cons x p ih =>
    intro q s
    simp only [List.cons_append, KsHeap.exec, ih]
    cases s.cmd mc c x with
    | error e => rfl
    | ok r =>
      simp only [ok_bind]
      cases r.1.exec mc c p with
      | error e => rfl
      | ok r2 =>
        simp only [ok_bind, pure_eq_ok]
        cases r2.1.exec mc c q with
        | error e => rfl
        | ok r3 => simp only [ok_bind, List.append_assoc]

end SC
