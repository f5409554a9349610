import Verif.Own.CompactProofs
import Verif.Props.Own
/-!
# Ownership of the memory of `compact_chaining_map`: C63

As for `separate_chaining_table`: programs create maps, call their functions, swap, move-assign and destroy them.
-/
namespace SC
open Own
variable {c : CCfg} {f : Nat} {prog : List (TCmd Compact.Op)} {s : TSt CTab}

/-- A program that respects the preconditions of the functions and does not use maps that were moved from. -/
structure CompactProg (K : Keys) (prog : List (TCmd Compact.Op)) : Prop where
  valid : ∀ cmd ∈ prog, cmd.All (Compact.Op.Valid K)
  moved : MayUse false [] prog

/-- 8 bit words, 5 bit entries, at most three entries in a bucket; `rel` is what releases the memory -/
def ownCompact (rel : Alloc) (zeroNull : Bool) : CCfg :=
  { kw := 8, maxSize := 3, hash := fun lg k => k % 2 ^ lg, width := fun lg => 13 - min lg 8, sb := 8, rel := rel, zeroNull := zeroNull }

theorem ownCompact_good : (ownCompact rel z).Good .any :=
  .any (show 3 ≤ 8 by decide) (fun _ _ => Nat.mod_lt _ (Nat.two_pow_pos _)) (show 3 ≤ 255 by decide)
    (fun lg => by have : min lg 8 ≤ 8 := Nat.min_le_right _ _; simp only [ownCompact]; omega) (show 0 < 8 by decide)

/-- five keys in the same bucket at first (so the number of buckets is doubled), a second map, deletions, moves -/
def compactProg : List (TCmd Compact.Op) :=
  [.new, .new] ++ [0, 16, 32, 48, 64].map (fun k => .call 0 (.insert k)) ++ [.call 1 (.insert 7), .swap 0 1, .call 0 (.find 7), .call 0 (.erase 7),
    .call 1 (.erase 16), .new, .moveAssign 2 1, .destroy 1, .call 1 (.insert 6), .call 0 (.reserve 64), .call 0 (.insert 9)]

theorem compactProg_ok : CompactProg .any compactProg ∧ ∀ cmd ∈ compactProg, cmd.All Compact.Op.Keeps := by
  refine ⟨⟨?_, ?_⟩, ?_⟩
  · simp [compactProg, TCmd.All, Compact.Op.Valid, Keys.any, Keys.Room]
  · simp [compactProg, MayUse, TCmd.flow]
  · simp [compactProg, TCmd.All, Compact.Op.Keeps]

/-- C63 is false: all memory is allocated with `malloc` and `realloc`, but the code releases it with `delete[]`.  Whatever a program has done
before, destroying a map that has arrays is undefined behaviour. -/
theorem C63_wrong_release {K : Keys} (g : c.Good K) (hrel : c.rel = .new) (hp : CompactProg K prog) (hr : (Compact.cls c).run f prog = .ok s) {t : CTab}
    (ht : t ∈ s.tabs) (ha : t.sizes ≠ none) : Compact.destroy c s.heap t = .error .undef := by
  have := TabClass.run_ok (clean := False) (Compact.laws g f) prog hp.valid (fun e => e.elim) hp.moved
  rw [hr] at this
  obtain ⟨us, l, L, e1, -, hok, his, -⟩ := this
  obtain ⟨i, hi, e⟩ := List.getElem_of_mem ht
  obtain ⟨x, x1, rfl⟩ := titem_get e1 ((List.getElem?_eq_getElem hi).trans (congrArg some e))
  obtain ⟨S, s1, -⟩ := titemsFoot_set (Compact.laws g f) x1
  have hO := (hok x (List.mem_of_getElem? x1)).1
  obtain ⟨t, W, u⟩ := x
  cases W with
  | none => exact absurd hO ha
  | some V => exact Compact.destroy_undef (by rw [hrel]; decide) hO (his.cast (by rw [s1, add_assoc]; rfl))

/-- The first insertion gives a map arrays. -/
example : ∃ s t, CompactProg .any [.new, .call 0 (.insert 5)] ∧ (Compact.cls (ownCompact .new true)).run 9 [.new, .call 0 (.insert 5)] = .ok s ∧ t ∈ s.tabs ∧
    t.sizes ≠ none := by
  have hr : (match (Compact.cls (ownCompact .new true)).run 9 [.new, .call 0 (.insert 5)] with
    | .ok s => s.tabs.any (fun t => t.sizes.isSome) | .error _ => false) = true := by decide +kernel
  cases h : (Compact.cls (ownCompact .new true)).run 9 [.new, .call 0 (.insert 5)] with
  | error e => rw [h] at hr; cases hr
  | ok s =>
    rw [h] at hr
    obtain ⟨t, t1, t2⟩ := List.any_eq_true.mp hr
    refine ⟨s, t, ⟨by simp [TCmd.All, Compact.Op.Valid, key_any], by simp [MayUse, TCmd.flow]⟩, rfl, t1, Option.isSome_iff_ne_none.mp t2⟩

/-- What holds if `delete[]` and `free` were the same (as with many allocators): no program has a memory fault, all maps can be destroyed, and without `reserve(1)`
every block is released, whatever `realloc(p, 0)` does.  (Here the hash function may be any function; then the recursion may not end.) -/
theorem C63_release_partial (g : c.Good .any) (hrel : c.rel = .malloc) (f : Nat) (hp : CompactProg .any prog) :
    (∃ s h, (Compact.cls c).run f prog = .ok s ∧ (Compact.cls c).destroyAll s.heap s.tabs = .ok h ∧
      ((∀ cmd ∈ prog, cmd.All Compact.Op.Keeps) → Heap.Empty h)) ∨
    (Compact.cls c).run f prog = .error .fuel ∨ (Compact.cls c).run f prog = .error .shift := by
  have := TabClass.run_ok (clean := ∀ cmd ∈ prog, cmd.All Compact.Op.Keeps) (Compact.laws g f) prog hp.valid id hp.moved
  cases hr : (Compact.cls c).run f prog with
  | ok s =>
    rw [hr] at this
    obtain ⟨us, hI⟩ := this
    have hd := hI.destroyAll
    cases h1 : (Compact.cls c).destroyAll s.heap s.tabs with
    | ok h => rw [h1] at hd; exact .inl ⟨s, h, rfl, h1, hd⟩
    | error e => rw [h1] at hd; exact absurd hrel hd.1
  | error e =>
    rw [hr] at this
    rcases this with h | h
    · rcases h.2 with rfl | rfl
      · exact .inr (.inl rfl)
      · exact .inr (.inr rfl)
    · exact absurd hrel h.1

/-- The same with a hash function that spreads the keys: every call returns. -/
theorem C63_returns_partial {K : Keys} (g : c.Good K) (hs : K.sure) (hf : K.top < f) (hrel : c.rel = .malloc) (hp : CompactProg K prog) :
    ∃ s h, (Compact.cls c).run f prog = .ok s ∧ (Compact.cls c).destroyAll s.heap s.tabs = .ok h ∧
      ((∀ cmd ∈ prog, cmd.All Compact.Op.Keeps) → Heap.Empty h) := by
  have := TabClass.run_ok (clean := ∀ cmd ∈ prog, cmd.All Compact.Op.Keeps) (Compact.laws g f) prog hp.valid id hp.moved
  cases hr : (Compact.cls c).run f prog with
  | ok s =>
    rw [hr] at this
    obtain ⟨us, hI⟩ := this
    have hd := hI.destroyAll
    cases h1 : (Compact.cls c).destroyAll s.heap s.tabs with
    | ok h => rw [h1] at hd; exact ⟨s, h, rfl, h1, hd⟩
    | error e => rw [h1] at hd; exact absurd hrel hd.1
  | error e =>
    rw [hr] at this
    rcases this with h | h
    · exact absurd ⟨hs, by omega, by omega⟩ h.1
    · exact absurd hrel h.1

/-- The library's hash functions do, for maps with `value_width()` at least one. -/
theorem C63_hash_returns_partial (hk : HashKind) (h3 : 3 ≤ c.kw) (h64 : c.kw ≤ 64) (h2 : 2 ≤ c.maxSize) (hmax : c.maxSize ≤ 255)
    (hh : c.hash = hk.place c.kw) (hw : ∀ lg, lg < hk.width c.kw → 0 < c.width lg) (hsb : 0 < c.sb) (hf : 64 ≤ f) (hrel : c.rel = .malloc)
    (hp : CompactProg (hk.keys c.kw) prog) :
    ∃ s h, (Compact.cls c).run f prog = .ok s ∧ (Compact.cls c).destroyAll s.heap s.tabs = .ok h ∧
      ((∀ cmd ∈ prog, cmd.All Compact.Op.Keeps) → Heap.Empty h) :=
  C63_returns_partial (.hash hk h3 h64 h2 hmax hh hw hsb) trivial (by have := (keys_top hk h3 h64).2; omega) hrel hp

/-- keys of eight bits, values of five bits, `xorshift_hash<>` -/
def hashCompact : CCfg := { ownCompact .malloc true with hash := (HashKind.xorshift 8).place 8, width := fun lg => 8 - lg + 5 }

theorem compactProg_hash : CompactProg ((HashKind.xorshift 8).keys 8) compactProg := by
  refine ⟨?_, compactProg_ok.1.moved⟩
  simp [compactProg, TCmd.All, Compact.Op.Valid, HashKind.keys, HashKind.width, Keys.Room]

example : ∃ s h, (Compact.cls hashCompact).run 64 compactProg = .ok s ∧ (Compact.cls hashCompact).destroyAll s.heap s.tabs = .ok h ∧ Heap.Empty h := by
  obtain ⟨s, h, a, b, e⟩ := C63_hash_returns_partial (c := hashCompact) (f := 64) (.xorshift 8) (show 3 ≤ 8 by decide) (show 8 ≤ 64 by decide) (show 2 ≤ 3 by decide)
    (show 3 ≤ 255 by decide) rfl (fun lg _ => show 0 < 8 - lg + 5 by omega) (show 0 < 8 by decide) (Nat.le_refl _) rfl compactProg_hash
  exact ⟨s, h, a, b, e compactProg_ok.2⟩

example : ∃ s, (Compact.cls (ownCompact .malloc true)).run 9 compactProg = .ok s ∧ s.tabs.map (fun t => (t.lg, t.elems)) = [(6, 1), (5, 5)] := by
  have hr : (match (Compact.cls (ownCompact .malloc true)).run 9 compactProg with
    | .ok s => s.tabs.map (fun t => (t.lg, t.elems)) == [(6, 1), (5, 5)] | .error _ => false) = true := by decide +kernel
  cases h : (Compact.cls (ownCompact .malloc true)).run 9 compactProg with
  | error e => rw [h] at hr; cases hr
  | ok s => rw [h] at hr; exact ⟨s, rfl, beq_iff_eq.mp hr⟩

/-- C63, moves: move assignment takes over the arrays of the source, and the old arrays of the target are released.  A source that had buckets
still counts them: every later insertion, deletion and query on it follows a null pointer, and `clear()` does not help. -/
theorem C63_moved_from_null {h h' : Own.Heap} {t o t' o' : CTab} (hm : Compact.moveAssign c h t o = .ok (t', o', h')) (hlg : o.lg ≠ 0) (k : Nat) :
    t' = o ∧ Compact.insert c (f + 1) h' o' k = .error .null ∧ Compact.erase c h' o' k = .error .null ∧ Compact.find c h' o' k = .error .null ∧
      Compact.clear c h' o' = .ok (o', h') := by
  unfold Compact.moveAssign at hm
  cases hc : Compact.clear c h t with
  | error e => rw [hc] at hm; cases hm
  | ok x =>
    rw [hc, ok_bind] at hm
    cases hm
    refine ⟨rfl, ?_, ?_, ?_, rfl⟩
    · simp [Compact.insert, hlg, Own.Heap.word, Own.Heap.data, Own.Heap.get]
    · simp [Compact.erase, hlg, Own.Heap.word, Own.Heap.data, Own.Heap.get]
    · simp [Compact.find, hlg, Own.Heap.word, Own.Heap.data, Own.Heap.get]

example : ∃ s, (Compact.cls (ownCompact .new true)).run 9 [.new, .call 0 (.insert 5), .new] = .ok s ∧ ∃ o t r, s.tabs = [o, t] ∧ o.lg ≠ 0 ∧
    Compact.moveAssign (ownCompact .new true) s.heap t o = .ok r := by
  have hr : (match (Compact.cls (ownCompact .new true)).run 9 [.new, .call 0 (.insert 5), .new] with
    | .ok s => (match s.tabs with
      | [o, t] => decide (o.lg ≠ 0) && (match Compact.moveAssign (ownCompact .new true) s.heap t o with | .ok _ => true | .error _ => false)
      | _ => false)
    | .error _ => false) = true := by decide +kernel
  cases h : (Compact.cls (ownCompact .new true)).run 9 [.new, .call 0 (.insert 5), .new] with
  | error e => rw [h] at hr; cases hr
  | ok s =>
    simp only [h] at hr
    refine ⟨s, rfl, ?_⟩
    split at hr
    · next o t e =>
      obtain ⟨h1, h2⟩ := Bool.and_eq_true_iff.mp hr
      split at h2
      · next r e2 => exact ⟨o, t, r, e, of_decide_eq_true h1, e2⟩
      · cases h2
    · cases hr

/-- C63, memory: after `reserve(1)` the map has arrays but still counts as a map without buckets; the next insertion allocates again and the first
arrays are lost. -/
theorem C63_reserve_one_leaks : ∃ prog s h, CompactProg .any prog ∧ prog = [.new, .call 0 (.reserve 1), .call 0 (.insert 1)] ∧
    (Compact.cls (ownCompact .malloc true)).run 9 prog = .ok s ∧ (Compact.cls (ownCompact .malloc true)).destroyAll s.heap s.tabs = .ok h ∧ ¬ Heap.Empty h := by
  have hr : (match (Compact.cls (ownCompact .malloc true)).run 9 [.new, .call 0 (.reserve 1), .call 0 (.insert 1)] with
    | .ok s => (match (Compact.cls (ownCompact .malloc true)).destroyAll s.heap s.tabs with | .ok h => (h.mem 0).isSome | .error _ => false)
    | .error _ => false) = true := by decide +kernel
  cases h : (Compact.cls (ownCompact .malloc true)).run 9 [.new, .call 0 (.reserve 1), .call 0 (.insert 1)] with
  | error e => rw [h] at hr; cases hr
  | ok s =>
    simp only [h] at hr
    cases hd : (Compact.cls (ownCompact .malloc true)).destroyAll s.heap s.tabs with
    | error e => rw [hd] at hr; cases hr
    | ok h' =>
      simp only [hd] at hr
      refine ⟨_, s, h', ⟨by simp [TCmd.All, Compact.Op.Valid, Keys.any, Keys.Room], by simp [MayUse, TCmd.flow]⟩, rfl, h, hd, fun e => ?_⟩
      rw [e 0] at hr
      cases hr

end SC
