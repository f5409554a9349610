import Verif.Own.Run
import Verif.Own.Hash
/-!
# Ownership of the memory of `separate_chaining_table`: C35, C36, C61, C62

A program creates tables, calls their functions, swaps, moves and destroys them.  The heap refuses a second release of a block and a release with
the wrong function, and a dangling pointer cannot be followed; so a program without a fault releases no block twice.  A program that ends with an
empty heap has released every block.
-/
namespace SC
open Own
variable {c : MCfg} {f : Nat} {prog : List Cmd} {s : St}

/-- `s` is the state after a program that respects the preconditions of the functions and does not use tables that were moved from. -/
structure OwnAfter (c : MCfg) (f : Nat) (prog : List Cmd) (s : St) : Prop where
  good : ∃ K : Keys, c.Good K ∧ ∀ cmd ∈ prog, cmd.Valid c K
  moved : NoUseAfterMove [] prog
  run : runProg c f prog = .ok s

/-- nothing is allocated -/
def Heap.Empty (h : Own.Heap) : Prop := ∀ a, h.mem a = none

theorem OwnAfter.inv (h : OwnAfter c f prog s) : ∃ K us, Own.Inv c K False us s := by
  obtain ⟨K, g, hv⟩ := h.good
  have := runProg_ok (clean := False) g f prog hv (fun e => e.elim) h.moved
  rw [h.run] at this
  exact ⟨K, this⟩

theorem OwnAfter.inv_clean (h : OwnAfter c f prog s) (hw : 3 ≤ c.kw) (hk : ∀ cmd ∈ prog, cmd.Keeps c) : ∃ K us, Own.Inv c K True us s := by
  obtain ⟨K, g, hv⟩ := h.good
  have := runProg_ok (clean := True) g f prog hv (fun _ => ⟨hw, hk⟩) h.moved
  rw [h.run] at this
  exact ⟨K, this⟩

/-- lost blocks do not depend on who owns the others -/
theorem mem_of_is {h1 h2 : Own.Heap} {L : Foot} (a : h1.Is L) (b : h2.Is L) : h1.mem = h2.mem := by
  funext x
  apply Option.ext
  intro y
  rw [a.mem, b.mem]

/-! ## Instantiations and programs for the examples -/

/-- `chaining_map<plain_bucket<…>, plain_bucket<…>, …, arbitrary_resize>` with at most three entries in a bucket -/
def ownMap : MCfg := { kmem := plainMem, vmem := plainMem, hasVals := true, strat := .arbitrary, maxSize := 3, kw := 32, hash := fun lg k => k % 2 ^ lg }

/-- `chaining_set<avx2_bucket<…>, …, incremental_resize>` -/
def ownSet : MCfg := { kmem := avxMem, vmem := plainMem, hasVals := false, strat := .incremental, maxSize := 3, kw := 32, hash := fun lg k => k % 2 ^ lg }

theorem ownMap_good : ownMap.Good .any := .any (fun _ _ => Nat.mod_lt _ (Nat.two_pow_pos _)) (by decide)

theorem ownSet_good : ownSet.Good .any := .any (fun _ _ => Nat.mod_lt _ (Nat.two_pow_pos _)) (by decide)

/-- five keys that fall into the same bucket at first -/
def ownFill (i : Nat) : List Cmd := [0, 16, 32, 48, 64].map (fun k => .call i (.insert k (k + 1)))

/-- two tables with entries, a third one read from a stream, swaps, deletions -/
def ownProg : List Cmd :=
  [.new, .new] ++ ownFill 0 ++ [.call 1 (.insert 7 8), .swap 0 1, .call 0 (.erase 7), .call 1 (.erase 16), .call 1 .shrink,
    .newLoad 1 [[(2, 3), (4, 5)], []], .swap 2 0, .call 0 (.insert 6 6), .destroy 0]

theorem ownProg_valid : ∀ cmd ∈ ownProg, cmd.Valid ownMap .any := by
  simp [ownProg, ownFill, Cmd.Valid, MCall.Valid, image_any, key_any, MCfg.Loads, ownMap, plainMem]

theorem ownProg_keeps : ∀ cmd ∈ ownProg, cmd.Keeps ownMap := by simp [ownProg, ownFill, Cmd.Keeps, MCall.Keeps]

theorem ownProg_moved : NoUseAfterMove [] ownProg := by simp [ownProg, ownFill, NoUseAfterMove, Cmd.flow]

theorem ownProg_run : (match runProg ownMap 9 ownProg with | .ok s => s.tabs.map (fun t => (t.lg, t.elems, t.vals.isSome)) == [(5, 4, true), (4, 0, true)] | .error _ => false) = true := by
  decide +kernel

theorem ownProg_after : ∃ s, OwnAfter ownMap 9 ownProg s ∧ s.tabs.length = 2 ∧ ∃ o, s.tabs[0]? = some o ∧ o.lg = 5 ∧ o.elems = 4 ∧ o.vals.isSome := by
  have := ownProg_run
  cases h : runProg ownMap 9 ownProg with
  | error e => rw [h] at this; exact Bool.noConfusion this
  | ok s =>
    rw [h] at this
    have := beq_iff_eq.mp this
    refine ⟨s, ⟨⟨_, ownMap_good, ownProg_valid⟩, ownProg_moved, h⟩, by simpa using congrArg List.length this, ?_⟩
    cases ht : s.tabs with
    | nil => rw [ht] at this; simp at this
    | cons o ts => rw [ht] at this; simp at this; exact ⟨o, rfl, this.1⟩

/-! ## C35: swap -/

/-- After `a.swap(b)` each table has the entries and the number of elements of the other one. -/
theorem own_swap_contents (c : MCfg) (h : Own.Heap) (a b : MTab) : ∃ a' b' h', swap c h a b = .ok (a', b', h') ∧
    entries c h' a' = entries c h b ∧ entries c h' b' = entries c h a ∧ a'.elems = b.elems ∧ b'.elems = a.elems ∧ h'.mem = h.mem :=
  ⟨b, a, h, swap_eq c h a b, rfl, rfl, rfl, rfl, rfl⟩

example : (match runProg ownMap 9 ([.new, .new] ++ ownFill 0 ++ [.call 1 (.insert 7 8), .swap 0 1]) with
    | .ok s => (match s.tabs with
      | [a, b] => decide (entries ownMap s.heap a = .ok [(7, 8)]) && decide (entries ownMap s.heap b = .ok [(0, 1), (32, 33), (64, 65), (16, 17), (48, 49)])
      | _ => false)
    | .error _ => false) = true := by decide +kernel

/-- Destroying all tables after a swap succeeds: no block is released twice, none with the wrong function.  The same blocks are released as
without the swap. -/
theorem own_swap_release (h : OwnAfter c f prog s) (hij : i ≠ j) (hi : i < s.tabs.length) (hj : j < s.tabs.length) :
    ∃ s' h1 h2, (Cmd.swap i j).run c f s = .ok s' ∧ s'.tabs[i]? = s.tabs[j]? ∧ s'.tabs[j]? = s.tabs[i]? ∧
      destroyAll c s.heap s.tabs = .ok h1 ∧ destroyAll c s'.heap s'.tabs = .ok h2 ∧ h2.mem = h1.mem := by
  obtain ⟨K, us, l, L, e1, -, hok, his, -⟩ := h.inv
  have ti := List.getElem?_eq_getElem hi
  have tj := List.getElem?_eq_getElem hj
  obtain ⟨x, x1, x2⟩ := item_get e1 ti
  obtain ⟨y, y1, y2⟩ := item_get e1 tj
  obtain ⟨S, s1, s2⟩ := itemsFoot_set2 c x1 y1 hij
  obtain ⟨h1, a1, a2⟩ := destroyAll_ok l s.heap L (fun x hx => (hok x hx).1) his
  obtain ⟨h2, b1, b2⟩ := destroyAll_ok (c := c) ((l.set i y).set j x) s.heap L
    (ok_set (ok_set (fun x hx => (hok x hx).1) (hok y (List.mem_of_getElem? y1)).1) (hok x (List.mem_of_getElem? x1)).1)
    (his.cast (by rw [s1, s2]; ac_rfl))
  rw [e1] at a1
  rw [map_set2, e1, x2, y2] at b1
  refine ⟨{ heap := s.heap, tabs := (s.tabs.set i s.tabs[j]).set j s.tabs[i] }, h1, h2, ?_, ?_, ?_, a1, b1, mem_of_is b2 a2⟩
  · simp only [Cmd.run, if_neg hij, ti, tj, swap_eq, ok_bind]; rfl
  · rw [List.getElem?_set_ne (Ne.symm hij), List.getElem?_set_self (by simpa using hi), tj]
  · rw [List.getElem?_set_self (by simpa using hj), ti]

example : ∃ s, OwnAfter ownMap 9 ownProg s ∧ 0 < s.tabs.length ∧ 1 < s.tabs.length := by
  obtain ⟨s, h1, h2, _⟩ := ownProg_after
  exact ⟨s, h1, by omega, by omega⟩

/-- No program has a memory fault, and at its end all tables can be destroyed.  (The bound `f` on the depth of the recursion in the model and a
shift by 64 bits for a table with `2^63` buckets are the only ways to stop.) -/
theorem own_safe (g : c.Good .any) (f : Nat) (prog : List Cmd) (hv : ∀ cmd ∈ prog, cmd.Valid c .any) (hm : NoUseAfterMove [] prog) :
    (∃ s h, runProg c f prog = .ok s ∧ destroyAll c s.heap s.tabs = .ok h) ∨ runProg c f prog = .error .fuel ∨ runProg c f prog = .error .shift := by
  have := runProg_ok (clean := False) g f prog hv (fun e => e.elim) hm
  cases hr : runProg c f prog with
  | ok s =>
    rw [hr] at this
    obtain ⟨us, this⟩ := this
    obtain ⟨h, a, _⟩ := this.destroyAll
    exact .inl ⟨s, h, rfl, a⟩
  | error e =>
    rw [hr] at this
    rcases this.2 with rfl | rfl
    · exact .inr (.inl rfl)
    · exact .inr (.inr rfl)

example : (∀ cmd ∈ ownProg, cmd.Valid ownMap .any) ∧ NoUseAfterMove [] ownProg := ⟨ownProg_valid, ownProg_moved⟩

/-- With hash functions that spread the keys every call returns: no program stops, and at its end all tables can be destroyed. -/
theorem own_returns {K : Keys} (g : c.Good K) (hs : K.sure) (hf : K.top < f) (prog : List Cmd) (hv : ∀ cmd ∈ prog, cmd.Valid c K)
    (hm : NoUseAfterMove [] prog) : ∃ s h, OwnAfter c f prog s ∧ destroyAll c s.heap s.tabs = .ok h := by
  have := runProg_ok (clean := False) g f prog hv (fun e => e.elim) hm
  cases hr : runProg c f prog with
  | ok s =>
    rw [hr] at this
    obtain ⟨us, this⟩ := this
    obtain ⟨h, a, _⟩ := this.destroyAll
    exact ⟨s, h, ⟨⟨K, g, hv⟩, hm, hr⟩, a⟩
  | error e =>
    rw [hr] at this
    exact absurd ⟨hs, by omega, by omega⟩ this.1

/-- The library's hash functions do.  (Keys are numbers of `key_width` bits; `reserve` gets at least one and not more buckets than the hash function
distinguishes; streams contain what a table can contain.) -/
theorem own_hash_returns (hk : HashKind) (h3 : 3 ≤ c.kw) (h64 : c.kw ≤ 64) (h2 : 2 ≤ c.maxSize) (hmax : c.maxSize ≤ 255) (hh : c.hash = hk.place c.kw)
    (hf : 64 ≤ f) (prog : List Cmd) (hv : ∀ cmd ∈ prog, cmd.Valid c (hk.keys c.kw)) (hm : NoUseAfterMove [] prog) :
    ∃ s h, OwnAfter c f prog s ∧ destroyAll c s.heap s.tabs = .ok h :=
  own_returns (MCfg.Good.hash hk h3 h64 h2 hmax hh) trivial (by have := (keys_top hk h3 h64).2; omega) prog hv hm

/-- `chaining_map<plain_bucket<uint32_t>, plain_bucket<…>, …, xorshift_hash<>, arbitrary_resize>` with a key width of 20 bits and at most three entries in
a bucket -/
def ownHashMap : MCfg := { ownMap with kw := 20, hash := (HashKind.xorshift 32).place 20 }

theorem ownHash_valid : ∀ cmd ∈ [.new, .new] ++ ownFill 0 ++ [.call 1 (.insert 7 8), .swap 0 1, .call 1 (.reserve 64), .call 1 .shrink, .destroy 0],
    cmd.Valid ownHashMap ((HashKind.xorshift 32).keys 20) := by
  simp [ownFill, Cmd.Valid, MCall.Valid, HashKind.keys, HashKind.width, Keys.Room]

example : ∃ s h, OwnAfter ownHashMap 64 ([.new, .new] ++ ownFill 0 ++ [.call 1 (.insert 7 8), .swap 0 1, .call 1 (.reserve 64), .call 1 .shrink, .destroy 0]) s ∧
    destroyAll ownHashMap s.heap s.tabs = .ok h :=
  own_hash_returns (.xorshift 32) (by decide) (by decide) (by decide) (by decide) rfl (Nat.le_refl _) _ ownHash_valid
    (by simp [ownFill, NoUseAfterMove, Cmd.flow])

/-- Without the statements that lose blocks (C61) every block is released, once. -/
theorem own_release_partial (h : OwnAfter c f prog s) (hw : 3 ≤ c.kw) (hk : ∀ cmd ∈ prog, cmd.Keeps c) :
    ∃ h', destroyAll c s.heap s.tabs = .ok h' ∧ Heap.Empty h' := by
  obtain ⟨K, us, hI⟩ := h.inv_clean hw hk
  obtain ⟨h', a, b⟩ := hI.destroyAll
  exact ⟨h', a, b trivial⟩

example : ∃ s, OwnAfter ownMap 9 ownProg s ∧ 3 ≤ ownMap.kw ∧ ∀ cmd ∈ ownProg, cmd.Keeps ownMap := by
  obtain ⟨s, h, _⟩ := ownProg_after
  exact ⟨s, h, by decide, ownProg_keeps⟩

/-! ## C36: moves -/

/-- the array of value buckets is one of the blocks of the table -/
theorem vals_mem {K : Keys} {W : View} (hO : W.Of c K t) (ha : t.vals = some a) : ∃ b, (a, b) ∈ W.foot c := by
  cases W with
  | live V =>
    obtain ⟨p, w⟩ := hO
    have hv := p.vals
    rw [ha] at hv
    cases hh : c.hasVals with
    | false => rw [hh] at hv; cases hv
    | true =>
      rw [hh] at hv
      simp only [if_true, Option.some.injEq] at hv
      subst hv
      exact ⟨⟨.new, .objs (V.vs.map (Option.map Prod.fst))⟩, by simp [View.foot, LV.foot, valFoot, hh, arrFoot, pt]⟩
  | idle v =>
    obtain ⟨-, -, hv, -⟩ := hO
    rw [ha] at hv
    cases v with
    | none => cases hv
    | some y =>
      simp only [Option.map_some, Option.some.injEq] at hv
      subst hv
      exact ⟨⟨.new, .objs (y.2.map (Option.map Prod.fst))⟩, by simp [View.foot, arrFoot, pt]⟩

/-- C36 is false: after move construction of any table with an array of value buckets, destroying both tables releases this array twice. -/
theorem own_move_ctor_double_release (h : OwnAfter c f prog s) {i : Nat} {o : MTab} (ht : s.tabs[i]? = some o) (hv : o.vals ≠ none) :
    ∃ h', destroy c s.heap (moveCtor o).1 = .ok h' ∧ destroy c h' (moveCtor o).2 = .error .doubleFree := by
  obtain ⟨K, us, l, L, e1, -, hok, his, -⟩ := h.inv
  obtain ⟨x, x1, rfl⟩ := item_get e1 ht
  obtain ⟨S, s1, -⟩ := itemsFoot_set c x1
  have hO := (hok x (List.mem_of_getElem? x1)).1
  obtain ⟨a, ha⟩ := Option.ne_none_iff_exists'.mp hv
  obtain ⟨b, hb⟩ := vals_mem hO ha
  have his' := his.cast (F' := x.W.foot c + (S + L)) (by rw [s1]; ac_rfl)
  obtain ⟨h', a1, a2⟩ := destroy_ok hO his'
  refine ⟨h', a1, ?_⟩
  have hm : h'.mem a = none := by
    cases hh : h'.mem a with
    | none => rfl
    | some y =>
      have := his'.nodup
      rw [Multiset.map_add, Multiset.nodup_add] at this
      exact absurd (Multiset.mem_map_of_mem Prod.fst ((a2.mem a y).mp hh)) (Multiset.disjoint_left.mp this.2.2 (Multiset.mem_map.mpr ⟨(a, b), hb, rfl⟩))
  simp [destroy, moveCtor, valsMove, capsMove, clear, clearCaps, Own.Heap.free, Own.Heap.deleteArr, ha, hm]

example : ∃ s o, OwnAfter ownMap 9 ownProg s ∧ s.tabs[0]? = some o ∧ o.vals ≠ none := by
  obtain ⟨s, h, -, o, h1, -, -, h2⟩ := ownProg_after
  exact ⟨s, o, h, h1, Option.isSome_iff_ne_none.mp h2⟩

/-- A table with buckets that was moved from cannot be used any more: every insertion and every deletion follows a null pointer, also after
`clear()`. -/
theorem own_moved_from_null (c : MCfg) (f : Nat) (h : Own.Heap) (hlg : o.lg ≠ 0) (k v : Nat) :
    Own.insert c (f + 1) h (moveCtor o).2 k v = .error .null ∧ erase c h (moveCtor o).2 k = .error .null ∧
      clear c h (moveCtor o).2 = .ok ((moveCtor o).2, h) := by
  refine ⟨?_, ?_, rfl⟩
  · simp [Own.insert, moveCtor, hlg, Own.Heap.word, Own.Heap.data, Own.Heap.get]
  · simp [erase, moveCtor, hlg, Own.Heap.word, Own.Heap.data, Own.Heap.get]

example : ∃ s o, OwnAfter ownMap 9 ownProg s ∧ s.tabs[0]? = some o ∧ o.lg ≠ 0 := by
  obtain ⟨s, h, -, o, h1, h2, -⟩ := ownProg_after
  exact ⟨s, o, h, h1, by rw [h2]; decide⟩

/-- `clear()` keeps the array of value buckets -/
theorem clear_vals (h : clear c hp t = .ok (t', hp')) : t'.vals = t.vals := by
  unfold clear at h
  split at h
  · cases h1 : (List.range t.bucketCount).foldlM (clearNonempty c t) hp with
    | error e => rw [h1] at h; cases h
    | ok h1' =>
      rw [h1, ok_bind] at h
      unfold clearStructure at h
      cases h2 : h1'.deleteArr c.kmem.how t.keys with
      | error e => rw [h2] at h; cases h
      | ok h2' =>
        rw [h2, ok_bind] at h
        cases h3 : h2'.free .malloc t.sizes with
        | error e => rw [h3] at h; cases h
        | ok h3' =>
          rw [h3, ok_bind] at h
          unfold clearCaps at h
          cases h4 : h3'.free .malloc t.caps with
          | error e => simp only [h4] at h; cases h
          | ok h4' => simp only [h4] at h; cases h; rfl
  · cases h; rfl

/-- Move assignment, for tables with and without values: all tables can be destroyed afterwards, no block is released twice.  If the target has no
array of value buckets, the same blocks are released as without the assignment; otherwise this array is lost. -/
theorem own_move_assign_partial (h : OwnAfter c f prog s) {i j : Nat} (hij : i ≠ j) (hi : i < s.tabs.length) (hj : j < s.tabs.length) :
    ∃ s' h1 h2, (Cmd.moveAssign i j).run c f s = .ok s' ∧ destroyAll c s.heap s.tabs = .ok h1 ∧ destroyAll c s'.heap s'.tabs = .ok h2 ∧
      (s.tabs[i].vals = none → h2.mem = h1.mem) ∧ (∀ a, s.tabs[i].vals = some a → h2.mem a ≠ none) := by
  obtain ⟨K, us, l, L, e1, -, hok, his, -⟩ := h.inv
  have ti := List.getElem?_eq_getElem hi
  have tj := List.getElem?_eq_getElem hj
  obtain ⟨x, x1, x2⟩ := item_get e1 ti
  obtain ⟨y, y1, y2⟩ := item_get e1 tj
  obtain ⟨S, s1, s2⟩ := itemsFoot_set2 c x1 y1 hij
  have hx := hok x (List.mem_of_getElem? x1)
  have hy := hok y (List.mem_of_getElem? y1)
  obtain ⟨h1, a1, a2⟩ := destroyAll_ok l s.heap L (fun x hx => (hok x hx).1) his
  obtain ⟨t', h', v, c1, c2, c3, -⟩ := clear_ok hx.1 (R := y.W.foot c + S + L) (his.cast (by rw [s1]; ac_rfl))
  have hv := clear_vals c1
  obtain ⟨h2, b1, b2⟩ := destroyAll_ok (c := c) ((l.set i y).set j ⟨{ y.t with vals := none, sizes := none, caps := none }, .idle none, false⟩) h'
    ((View.idle v).foot c + L) (ok_set (ok_set (fun x hx => (hok x hx).1) hy.1) ⟨rfl, rfl, rfl, fun _ => rfl⟩)
    (c3.cast (by rw [s2]; simp only [View.foot, zero_add]; ac_rfl))
  rw [e1] at a1
  rw [map_set2, e1, y2] at b1
  rw [x2] at c1
  refine ⟨{ heap := h', tabs := (s.tabs.set i s.tabs[j]).set j { s.tabs[j] with vals := none, sizes := none, caps := none } }, h1, h2, ?_, a1, b1, ?_, ?_⟩
  · simp only [Cmd.run, if_neg hij, ti, tj, moveAssign, c1, ok_bind]; rfl
  · intro e
    rw [← x2, ← hv, c2.2.2.1] at e
    cases v with
    | none => exact mem_of_is (b2.cast (by simp [View.foot])) a2
    | some z => cases e
  · intro a e e'
    rw [← x2, ← hv] at e
    obtain ⟨b, hb⟩ := vals_mem c2 e
    rw [(b2.mem a b).mpr (Multiset.mem_add.mpr (.inl hb))] at e'
    cases e'

example : ∃ s, OwnAfter ownMap 9 (ownProg ++ [.new, .moveAssign 2 0, .call 2 (.insert 1 1)]) s ∧ s.tabs.length = 3 := by
  have hr : (match runProg ownMap 9 (ownProg ++ [.new, .moveAssign 2 0, .call 2 (.insert 1 1)]) with
    | .ok s => decide (s.tabs.length = 3) | .error _ => false) = true := by decide +kernel
  cases h : runProg ownMap 9 (ownProg ++ [.new, .moveAssign 2 0, .call 2 (.insert 1 1)]) with
  | error e => rw [h] at hr; cases hr
  | ok s =>
    rw [h] at hr
    refine ⟨s, ⟨⟨_, ownMap_good, ?_⟩, by simp [ownProg, ownFill, NoUseAfterMove, Cmd.flow], h⟩, of_decide_eq_true hr⟩
    intro cmd hc
    rcases List.mem_append.mp hc with hc | hc
    · exact ownProg_valid cmd hc
    · simp only [List.mem_cons, List.not_mem_nil, or_false] at hc
      rcases hc with rfl | rfl | rfl <;> trivial

/-- a set that is moved to a new object and assigned back -/
def ownMoves : List Cmd :=
  [.new] ++ ownFill 0 ++ [.moveCtor 0, .call 1 (.insert 5 0), .moveAssign 0 1, .call 0 (.erase 16), .call 0 .clear, .call 0 (.insert 5 0)]

theorem ownMoves_run : (match runProg ownSet 9 ownMoves with | .ok s => s.tabs.map (fun t => (t.lg, t.elems)) == [(4, 1), (5, 6)] | .error _ => false) = true := by
  decide +kernel

/-- Sets: move construction and move assignment release every block once (this is `own_release_partial` for tables without values). -/
theorem own_set_moves_partial (h : OwnAfter c f prog s) (hv : c.hasVals = false) (hw : 3 ≤ c.kw)
    (hk : ∀ cmd ∈ prog, (∀ i n, cmd = .call i (.reserve n) → 2 ≤ n) ∧ (∀ i bits bs, cmd = .call i (.load bits bs) → bits ≠ 0) ∧
      (∀ bits bs, cmd = .newLoad bits bs → bits ≠ 0)) :
    ∃ h', destroyAll c s.heap s.tabs = .ok h' ∧ Heap.Empty h' := by
  refine own_release_partial h hw (fun cmd hc => ?_)
  obtain ⟨k1, k2, k3⟩ := hk cmd hc
  cases cmd with
  | newLoad bits bs => exact k3 bits bs rfl
  | moveAssign i j => exact hv
  | call i op =>
    cases op with
    | reserve n => exact k1 i n rfl
    | clear => exact hv
    | load bits bs => exact ⟨hv, k2 i bits bs rfl⟩
    | _ => trivial
  | _ => trivial

example : ∃ s, OwnAfter ownSet 9 ownMoves s ∧ s.tabs.length = 2 := by
  have hr := ownMoves_run
  cases h : runProg ownSet 9 ownMoves with
  | error e => rw [h] at hr; cases hr
  | ok s =>
    rw [h] at hr
    refine ⟨s, ⟨⟨_, ownSet_good, ?_⟩, ?_, h⟩, by simpa using congrArg List.length (beq_iff_eq.mp hr)⟩
    · simp [ownMoves, ownFill, Cmd.Valid, MCall.Valid, key_any, ownSet]
    · simp [ownMoves, ownFill, NoUseAfterMove, Cmd.flow]

/-! ## C61: no memory is lost -/

/-- C61 is false for maps: `clear()` keeps the array of value buckets, and the next insertion overwrites the pointer. -/
theorem own_clear_leaks : ∃ prog s h, OwnAfter ownMap 9 prog s ∧ prog = [.new, .call 0 (.insert 1 1), .call 0 .clear, .call 0 (.insert 1 1)] ∧
    destroyAll ownMap s.heap s.tabs = .ok h ∧ ¬ Heap.Empty h := by
  have hr : (match runProg ownMap 9 [.new, .call 0 (.insert 1 1), .call 0 .clear, .call 0 (.insert 1 1)] with
    | .ok s => (match destroyAll ownMap s.heap s.tabs with | .ok h => (h.mem 2).isSome | .error _ => false)
    | .error _ => false) = true := by decide +kernel
  cases h : runProg ownMap 9 [.new, .call 0 (.insert 1 1), .call 0 .clear, .call 0 (.insert 1 1)] with
  | error e => rw [h] at hr; cases hr
  | ok s =>
    simp only [h] at hr
    cases hd : destroyAll ownMap s.heap s.tabs with
    | error e => rw [hd] at hr; cases hr
    | ok h' =>
      simp only [hd] at hr
      refine ⟨_, s, h', ⟨⟨_, ownMap_good, by simp [Cmd.Valid, MCall.Valid, Keys.any]⟩, by simp [NoUseAfterMove, Cmd.flow], h⟩, rfl, hd, fun e => ?_⟩
      rw [e 2] at hr
      cases hr

/-- C61 is false for sets: after `reserve(1)` the table has arrays, but still counts as a table without buckets; the next insertion allocates
again. -/
theorem own_reserve_one_leaks : ∃ prog s h, OwnAfter ownSet 9 prog s ∧ prog = [.new, .call 0 (.reserve 1), .call 0 (.insert 1 1)] ∧
    destroyAll ownSet s.heap s.tabs = .ok h ∧ ¬ Heap.Empty h := by
  have hr : (match runProg ownSet 9 [.new, .call 0 (.reserve 1), .call 0 (.insert 1 1)] with
    | .ok s => (match destroyAll ownSet s.heap s.tabs with | .ok h => (h.mem 0).isSome | .error _ => false)
    | .error _ => false) = true := by decide +kernel
  cases h : runProg ownSet 9 [.new, .call 0 (.reserve 1), .call 0 (.insert 1 1)] with
  | error e => rw [h] at hr; cases hr
  | ok s =>
    simp only [h] at hr
    cases hd : destroyAll ownSet s.heap s.tabs with
    | error e => rw [hd] at hr; cases hr
    | ok h' =>
      simp only [hd] at hr
      refine ⟨_, s, h', ⟨⟨_, ownSet_good, by simp [Cmd.Valid, MCall.Valid, Keys.any, Keys.Room]⟩, by simp [NoUseAfterMove, Cmd.flow], h⟩, rfl, hd, fun e => ?_⟩
      rw [e 0] at hr
      cases hr

/-! ## C62: tables that were read from a stream -/

/-- `chaining_set<class_bucket<…>, …>` -/
def ownClass : MCfg := { ownSet with kmem := classMem }

/-- C62 is false for `class_bucket`: what `deserialize` allocates with `malloc` is released with `delete[]`. -/
theorem own_class_bucket_mismatch : ∃ s, runProg ownClass 9 [.newLoad 1 [[(2, 0)], []]] = .ok s ∧
    destroyAll ownClass s.heap s.tabs = .error .undef := by
  have hr : (match runProg ownClass 9 [.newLoad 1 [[(2, 0)], []]] with
    | .ok s => (match destroyAll ownClass s.heap s.tabs with | .ok _ => false | .error e => e == .undef)
    | .error _ => false) = true := by decide +kernel
  cases h : runProg ownClass 9 [.newLoad 1 [[(2, 0)], []]] with
  | error e => rw [h] at hr; cases hr
  | ok s =>
    simp only [h] at hr
    cases hd : destroyAll ownClass s.heap s.tabs with
    | ok _ => rw [hd] at hr; cases hr
    | error e => simp only [hd] at hr; exact ⟨s, rfl, by rw [hd, beq_iff_eq.mp hr]⟩

/-- For the other bucket classes a table can be read from a stream, also over an existing table, used and destroyed. -/
theorem own_load_partial (g : c.Good .any) (hl : c.Loads) (f : Nat) {bits : Nat} {bs : List (List (Nat × Nat))} (hi : Image c .any bits bs)
    (prog rest : List Cmd) (hv : ∀ cmd ∈ prog ++ rest, cmd.Valid c .any) (i : Nat) (hm : NoUseAfterMove [] (prog ++ [.call i (.load bits bs)] ++ rest)) :
    (∃ s h, runProg c f (prog ++ [.call i (.load bits bs)] ++ rest) = .ok s ∧ destroyAll c s.heap s.tabs = .ok h) ∨
      runProg c f (prog ++ [.call i (.load bits bs)] ++ rest) = .error .fuel ∨ runProg c f (prog ++ [.call i (.load bits bs)] ++ rest) = .error .shift := by
  refine own_safe g f _ (fun cmd hc => ?_) hm
  simp only [List.mem_append, List.mem_singleton] at hc
  rcases hc with (hc | rfl) | hc
  · exact hv cmd (List.mem_append.mpr (.inl hc))
  · exact ⟨hi, hl⟩
  · exact hv cmd (List.mem_append.mpr (.inr hc))

example : ownSet.Good .any ∧ ownSet.Loads ∧ Image ownSet .any 1 [[(2, 0), (4, 0)], [(1, 0)]] := by
  refine ⟨ownSet_good, ?_, ?_⟩
  · simp [MCfg.Loads, ownSet, avxMem]
  · simp [image_any, ownSet]

/-- The same for the library's hash functions: reading, using and destroying does not stop. -/
theorem own_load_returns_partial (hk : HashKind) (h3 : 3 ≤ c.kw) (h64 : c.kw ≤ 64) (h2 : 2 ≤ c.maxSize) (hmax : c.maxSize ≤ 255) (hh : c.hash = hk.place c.kw)
    (hf : 64 ≤ f) (hl : c.Loads) {bits : Nat} {bs : List (List (Nat × Nat))} (hi : Image c (hk.keys c.kw) bits bs) (prog rest : List Cmd)
    (hv : ∀ cmd ∈ prog ++ rest, cmd.Valid c (hk.keys c.kw)) (i : Nat) (hm : NoUseAfterMove [] (prog ++ [.call i (.load bits bs)] ++ rest)) :
    ∃ s h, runProg c f (prog ++ [.call i (.load bits bs)] ++ rest) = .ok s ∧ destroyAll c s.heap s.tabs = .ok h := by
  obtain ⟨s, h, a, b⟩ := own_hash_returns hk h3 h64 h2 hmax hh hf (prog ++ [.call i (.load bits bs)] ++ rest) (fun cmd hc => by
    simp only [List.mem_append, List.mem_singleton] at hc
    rcases hc with (hc | rfl) | hc
    · exact hv cmd (List.mem_append.mpr (.inl hc))
    · exact ⟨hi, hl⟩
    · exact hv cmd (List.mem_append.mpr (.inr hc))) hm
  exact ⟨s, h, a.run, b⟩

example : ownHashMap.Loads ∧ Image ownHashMap ((HashKind.xorshift 32).keys 20) 1 [[(1, 0), (5, 0)], [(2, 0)]] := by
  refine ⟨by simp [MCfg.Loads, ownHashMap, ownMap, plainMem], ⟨by decide, by decide, fun _ => by decide, ?_⟩⟩
  intro i b hb
  rcases i with _ | _ | i
  · cases hb
    exact ⟨by simp [HashKind.keys], fun _ => by decide, fun _ => by decide +kernel⟩
  · cases hb
    exact ⟨by simp [HashKind.keys], fun _ => by decide, fun _ => by decide +kernel⟩
  · simp at hb

end SC
