import Verif.Own.GroupProofs
import Verif.Props.Own
/-!
# Ownership of the memory of `group_chaining_table`: C69

As for `separate_chaining_table`: programs create tables, call their functions, swap, move-assign and destroy them.
-/
namespace SC
open Own
variable {c : GCfg} {K : Keys} {f : Nat} {prog : List (TCmd Grp.Op)}

/-- A program that respects the preconditions of the functions; its keys are those of `K`.  Tables that were moved from may be used. -/
def GroupProg (c : GCfg) (K : Keys) (prog : List (TCmd Grp.Op)) : Prop := ∀ cmd ∈ prog, cmd.All (Grp.Op.Valid c K)

/-- tables that were moved from may be used, so every program is fine -/
theorem mayUse_moved : ∀ (prog : List (TCmd Grp.Op)) {us : List Bool}, (∀ u ∈ us, u = true) → MayUse true us prog := by
  intro prog
  induction prog with
  | nil => intro us _; trivial
  | cons cmd prog ih =>
    intro us hus
    have get : ∀ {i : Nat} {u : Bool}, us[i]? = some u → u = true := fun h => hus _ (List.mem_of_getElem? h)
    have set : ∀ {i : Nat} {vs : List Bool}, (∀ u ∈ vs, u = true) → ∀ u ∈ vs.set i true, u = true := fun h u hu => by
      rcases List.mem_or_eq_of_mem_set hu with h1 | h1
      · exact h u h1
      · exact h1
    cases cmd with
    | new =>
      refine ⟨us ++ [true], rfl, ih (fun u hu => ?_)⟩
      rcases List.mem_append.mp hu with h | h
      · exact hus u h
      · exact List.mem_singleton.mp h
    | call i op =>
      refine ⟨us, ?_, ih hus⟩
      simp only [TCmd.flow]
      rw [if_neg (fun h => Bool.noConfusion (get h))]
    | swap i j =>
      simp only [MayUse, TCmd.flow]
      split
      · exact ⟨us, rfl, ih hus⟩
      · split
        · next a b h1 h2 =>
          obtain rfl := get h1
          obtain rfl := get h2
          exact ⟨_, rfl, ih (set (set hus))⟩
        · exact ⟨us, rfl, ih hus⟩
    | moveAssign i j =>
      simp only [MayUse, TCmd.flow]
      split
      · exact ⟨us, rfl, ih hus⟩
      · split
        · next a b h1 h2 =>
          obtain rfl := get h2
          exact ⟨_, rfl, ih (set (set hus))⟩
        · exact ⟨us, rfl, ih hus⟩
    | destroy i => exact ⟨_, rfl, ih (fun u hu => hus u (List.mem_of_mem_eraseIdx hu))⟩

/-- 8 bit words, at most three entries in a group -/
def ownGroup : GCfg := { kw := 8, hash := fun lg k => k % 2 ^ lg, width := fun lg => 8 - lg, vw := 5, sb := 8, maxSize := 3 }

theorem ownGroup_good : ownGroup.Good .any := .any (show 3 ≤ 8 by decide) (fun _ _ => Nat.mod_lt _ (Nat.two_pow_pos _)) (show 3 ≤ 255 by decide)

/-- C69: no program has a memory fault, all tables can be destroyed, and unless `reserve(1)` was called every block is released.  Missing: memory is lost by
`reserve(1)`, see `C69_reserve_one_leaks`. -/
theorem C69_release_partial (g : c.Good K) (f : Nat) (hp : GroupProg c K prog) :
    (∃ s h, (Grp.cls c).run f prog = .ok s ∧ (Grp.cls c).destroyAll s.heap s.tabs = .ok h ∧
      ((∀ cmd ∈ prog, cmd.All Grp.Op.Keeps) → Heap.Empty h)) ∨
    (Grp.cls c).run f prog = .error .fuel ∨ (Grp.cls c).run f prog = .error .shift := by
  have := TabClass.run_ok (clean := ∀ cmd ∈ prog, cmd.All Grp.Op.Keeps) (Grp.laws g f) prog hp id (mayUse_moved prog (by simp))
  cases hr : (Grp.cls c).run f prog with
  | ok s =>
    rw [hr] at this
    obtain ⟨us, hI⟩ := this
    have hd := hI.destroyAll
    cases h1 : (Grp.cls c).destroyAll s.heap s.tabs with
    | ok h => rw [h1] at hd; exact .inl ⟨s, h, rfl, h1, hd⟩
    | error e => rw [h1] at hd; exact hd.elim
  | error e =>
    rw [hr] at this
    rcases this.2 with rfl | rfl
    · exact .inr (.inl rfl)
    · exact .inr (.inr rfl)

/-- C69 with a hash function that spreads the keys: every call returns.  Missing: as for `C69_release_partial`. -/
theorem C69_returns_partial (g : c.Good K) (hs : K.sure) (hf : K.top < f) (hp : GroupProg c K prog) :
    ∃ s h, (Grp.cls c).run f prog = .ok s ∧ (Grp.cls c).destroyAll s.heap s.tabs = .ok h ∧ ((∀ cmd ∈ prog, cmd.All Grp.Op.Keeps) → Heap.Empty h) := by
  have := TabClass.run_ok (clean := ∀ cmd ∈ prog, cmd.All Grp.Op.Keeps) (Grp.laws g f) prog hp id (mayUse_moved prog (by simp))
  cases hr : (Grp.cls c).run f prog with
  | ok s =>
    rw [hr] at this
    obtain ⟨us, hI⟩ := this
    have hd := hI.destroyAll
    cases h1 : (Grp.cls c).destroyAll s.heap s.tabs with
    | ok h => rw [h1] at hd; exact ⟨s, h, rfl, h1, hd⟩
    | error e => rw [h1] at hd; exact hd.elim
  | error e =>
    rw [hr] at this
    exact absurd ⟨hs, by omega, by omega⟩ this.1

/-- The library's hash functions do, as a group has room for 255 entries: with the greatest number of buckets 64 buckets get at most 128 keys. -/
theorem C69_hash_returns_partial (hk : HashKind) (h3 : 3 ≤ c.kw) (h64 : c.kw ≤ 64) (h2 : 128 ≤ c.maxSize) (hmax : c.maxSize ≤ 255) (hh : c.hash = hk.place c.kw)
    (hf : 64 ≤ f) (hp : GroupProg c (hk.keys c.kw) prog) :
    ∃ s h, (Grp.cls c).run f prog = .ok s ∧ (Grp.cls c).destroyAll s.heap s.tabs = .ok h ∧ ((∀ cmd ∈ prog, cmd.All Grp.Op.Keeps) → Heap.Empty h) :=
  C69_returns_partial (.hash hk h3 h64 h2 hmax hh) trivial (by have := (keys_top hk h3 h64).2; omega) hp

/-- four keys in the same group (so the number of buckets is doubled until they are apart), a second table, deletions, moves, a stream read back; the table
that was moved from is used again -/
def groupProg : List (TCmd Grp.Op) :=
  [.new, .new] ++ [0, 1, 2, 64].map (fun k => .call 0 (.insert k 9)) ++ [.call 1 (.insert 7 1), .swap 0 1, .call 0 (.find 7), .call 0 (.erase 7),
    .call 1 (.erase 1), .new, .moveAssign 2 1, .call 1 (.insert 6 2), .call 0 (.reserve 16), .call 0 (.insert 9 3), .new, .moveAssign 0 2,
    .call 3 (.load 2 3 [[(1, 1), (2, 2)], []]), .call 3 (.insert 3 3), .destroy 1, .call 1 .clear]

theorem groupProg_keeps : ∀ cmd ∈ groupProg, cmd.All Grp.Op.Keeps := by simp [groupProg, TCmd.All, Grp.Op.Keeps]

/-- `xorshift_hash<>` with keys of eight bits -/
def hashGroup : GCfg := { ownGroup with hash := (HashKind.xorshift 8).place 8, maxSize := 255 }

/-- the stream holds the keys in the groups they belong to -/
theorem hashGroup_image : Grp.Image hashGroup ((HashKind.xorshift 8).keys 8) 2 3 [[(1, 1), (2, 2)], []] where
  max := by simp [hashGroup]
  le _ := by simp [HashKind.keys, HashKind.width]
  pos := by decide
  word := by decide
  holds i xs hi := by
    match i, hi with
    | 0, hi =>
      cases hi
      exact ⟨by simp [HashKind.keys], fun _ => by simp, fun _ => by decide +kernel⟩
    | 1, hi =>
      cases hi
      exact .nil

theorem groupProg_hash : GroupProg hashGroup ((HashKind.xorshift 8).keys 8) groupProg := by
  simp only [GroupProg, groupProg, List.map_cons, List.map_nil, List.cons_append, List.nil_append, List.forall_mem_cons, TCmd.All, Grp.Op.Valid]
  simp only [hashGroup_image]
  simp [HashKind.keys, HashKind.width, Keys.Room]

example : ∃ s h, (Grp.cls hashGroup).run 64 groupProg = .ok s ∧ (Grp.cls hashGroup).destroyAll s.heap s.tabs = .ok h ∧ Heap.Empty h := by
  obtain ⟨s, h, a, b, e⟩ := C69_hash_returns_partial (c := hashGroup) (f := 64) (.xorshift 8) (show 3 ≤ 8 by decide) (show 8 ≤ 64 by decide)
    (show 128 ≤ 255 by decide) (show 255 ≤ 255 by decide) rfl (Nat.le_refl _) groupProg_hash
  exact ⟨s, h, a, b, e groupProg_keeps⟩

example : GroupProg ownGroup .any groupProg ∧ (∀ cmd ∈ groupProg, cmd.All Grp.Op.Keeps) ∧
    ∃ s, (Grp.cls ownGroup).run 9 groupProg = .ok s ∧ s.tabs.map (fun t => (t.lg, t.elems, t.bpg)) = [(7, 3, 64), (0, 0, 64), (2, 3, 3)] := by
  refine ⟨?_, groupProg_keeps, ?_⟩
  · simp [GroupProg, groupProg, TCmd.All, Grp.Op.Valid, Grp.image_any, key_any, room_any, ownGroup]
  · have hr : (match (Grp.cls ownGroup).run 9 groupProg with
      | .ok s => s.tabs.map (fun t => (t.lg, t.elems, t.bpg)) == [(7, 3, 64), (0, 0, 64), (2, 3, 3)] | .error _ => false) = true := by decide +kernel
    cases h : (Grp.cls ownGroup).run 9 groupProg with
    | error e => rw [h] at hr; cases hr
    | ok s => rw [h] at hr; exact ⟨s, rfl, beq_iff_eq.mp hr⟩

/-- C69, moves: move assignment takes over the arrays of the source, and the source is a table without buckets. -/
theorem C69_move_assign {h h' : Own.Heap} {t o t' o' : GTab} (hm : Grp.moveAssign h t o = .ok (t', o', h')) :
    t' = o ∧ o' = { groups := none, sizes := none, lg := 0, elems := 0, bpg := t.bpg } := by
  unfold Grp.moveAssign at hm
  cases hc : Grp.clear h t with
  | error e => rw [hc] at hm; cases hm
  | ok x =>
    rw [hc, ok_bind] at hm
    cases hm
    refine ⟨rfl, ?_⟩
    unfold Grp.clear at hc
    cases h1 : (List.range (Grp.groupCount t)).foldlM (Grp.clearNonempty t) h with
    | error e => rw [h1] at hc; cases hc
    | ok h2 =>
      rw [h1, ok_bind] at hc
      unfold Grp.clearStructure at hc
      generalize (if t.groups ≠ none then do
        let h ← h2.deleteArr .malloc t.groups
        h.free .new t.sizes
      else .ok h2 : Res Own.Heap) = r at hc
      cases r with
      | error e => cases hc
      | ok h3 => cases hc; rfl

example : ∃ s, (Grp.cls ownGroup).run 9 [.new, .call 0 (.insert 5 1), .new] = .ok s ∧ ∃ o t r, s.tabs = [o, t] ∧ o.lg ≠ 0 ∧
    Grp.moveAssign s.heap t o = .ok r := by
  have hr : (match (Grp.cls ownGroup).run 9 [.new, .call 0 (.insert 5 1), .new] with
    | .ok s => (match s.tabs with
      | [o, t] => decide (o.lg ≠ 0) && (match Grp.moveAssign s.heap t o with | .ok _ => true | .error _ => false)
      | _ => false)
    | .error _ => false) = true := by decide +kernel
  cases h : (Grp.cls ownGroup).run 9 [.new, .call 0 (.insert 5 1), .new] with
  | error e => rw [h] at hr; cases hr
  | ok s =>
    simp only [h] at hr
    refine ⟨s, rfl, ?_⟩
    split at hr
    · next o t e =>
      obtain ⟨h1, h2⟩ := Bool.and_eq_true_iff.mp hr
      split at h2
      · next r e2 => exact ⟨o, t, r, e, of_decide_eq_true h1, e2⟩
      · cases h2
    · cases hr

/-- C69 is false with `reserve(1)`: afterwards the table has an array of groups but still counts as a table without buckets; the next insertion allocates
again and the first array is lost. -/
theorem C69_reserve_one_leaks : ∃ prog s h, GroupProg ownGroup .any prog ∧ prog = [.new, .call 0 (.reserve 1), .call 0 (.insert 1 1)] ∧
    (Grp.cls ownGroup).run 9 prog = .ok s ∧ (Grp.cls ownGroup).destroyAll s.heap s.tabs = .ok h ∧ ¬ Heap.Empty h := by
  have hr : (match (Grp.cls ownGroup).run 9 [.new, .call 0 (.reserve 1), .call 0 (.insert 1 1)] with
    | .ok s => (match (Grp.cls ownGroup).destroyAll s.heap s.tabs with | .ok h => (h.mem 0).isSome | .error _ => false)
    | .error _ => false) = true := by decide +kernel
  cases h : (Grp.cls ownGroup).run 9 [.new, .call 0 (.reserve 1), .call 0 (.insert 1 1)] with
  | error e => rw [h] at hr; cases hr
  | ok s =>
    simp only [h] at hr
    cases hd : (Grp.cls ownGroup).destroyAll s.heap s.tabs with
    | error e => rw [hd] at hr; cases hr
    | ok h' =>
      simp only [hd] at hr
      refine ⟨_, s, h', by simp [GroupProg, TCmd.All, Grp.Op.Valid, key_any, room_any], rfl, h, hd, fun e => ?_⟩
      rw [e 0] at hr
      cases hr

end SC
