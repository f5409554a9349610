import Verif.Overflow.Array
import Verif.Table.Agree
/-!
# `array_overflow` on memory that holds numbers

In `Verif.Overflow.Array` a cell that has not been written holds nothing, and reading it is a fault.  Here fresh memory
holds some numbers, as it does in practice, and `find` compares them with the key.
-/
namespace SC

/-- `array_overflow` (overflow.hpp:63-162), where `new` (overflow.hpp:82-85) gets memory that holds the numbers `junk`.
All arrays of keys that a program allocates hold the same numbers at first.  The array of values may hold anything, it
is never read where it has not been written. -/
def arrJunk (c : ArrEnv) (junk : Nat → Nat) : OverflowOps ArrOv :=
  { arrOverflow c with
    new := fun _ _ => { keys := some ((List.range arrLength).map fun i => some (junk i % 2 ^ c.ks)),
                        vals := some (List.replicate arrLength none), elems := 0, bits := fun _ => false, nbits := 0 } }

/-! ## What it should do -/

/-- An array that keeps its elements in front, looks only at those, and closes the gap after an erasure. -/
def arrIdeal (c : ArrEnv) (junk : Nat → Nat) : OverflowOps ArrOv :=
  { arrJunk c junk with
    clear := fun o => { o with elems := 0 }
    insert := fun o b k v =>
      if b < o.nbits then do
        let ks ← cellWrite o.keys o.elems k
        let vs ← cellWrite o.vals o.elems (v % 2 ^ c.vs)
        return ({ o with keys := ks, vals := vs, elems := o.elems + 1, bits := upd o.bits b true }, o.elems)
      else .error .oob
    find := fun o k => scanFrom o.keys k 0 o.elems
    erase := fun o p => .ok { o with keys := o.keys.map (fun cs => cs.eraseIdx p ++ [none]),
                                     vals := o.vals.map (fun cs => cs.eraseIdx p ++ [none]), elems := o.elems - 1 } }

/-- the elements `l` are in front, in this order -/
structure IdealRep (o : ArrOv) (n : Nat) (l : List (Nat × Nat × Nat)) (full : Nat → Bool) : Prop where
  bits : full = o.bits
  nbits : n ≤ o.nbits
  elems : o.elems = l.length
  keys : ∃ r : Cells, o.keys = some (l.map (fun e => some e.2.1) ++ r) ∧ l.length + r.length = arrLength
  vals : ∃ r : Cells, o.vals = some (l.map (fun e => some e.2.2) ++ r) ∧ l.length + r.length = arrLength
  pos : l.map Prod.fst = List.range l.length
  nodup : (l.map fun e => e.2.1).Nodup

theorem ov_pos_split {l l₁ l₂ : List (Nat × Nat × Nat)} {e : Nat × Nat × Nat} (h : l.map Prod.fst = List.range l.length)
    (hl : l = l₁ ++ e :: l₂) : e.1 = l₁.length := by
  subst hl
  have := congrArg (fun x => x[l₁.length]?) h
  simpa using this

theorem scan_front (xs : List Nat) (r : Cells) (k n : Nat) (hn : n = xs.length) :
    scanFrom (some (xs.map some ++ r)) k 0 n = .ok (if k ∈ xs then xs.idxOf k else NPOS) := by
  subst hn
  have := scanFrom_eq k xs [] r
  simp only [List.nil_append, List.length_nil] at this
  rw [this]
  split <;> simp

theorem scan_all (xs ys : List Nat) (k n : Nat) (hn : n = xs.length + ys.length) (hk : k ∉ ys) :
    scanFrom (some (xs.map some ++ ys.map some)) k 0 n = .ok (if k ∈ xs then xs.idxOf k else NPOS) := by
  have := scan_front (xs ++ ys) [] k n (by simp [hn])
  rw [List.append_nil, List.map_append] at this
  rw [this]
  by_cases h : k ∈ xs
  · rw [if_pos h, if_pos (by simp [h]), idxOf_append_mem h]
  · rw [if_neg h, if_neg (by simp [h, hk])]

theorem cellRead_front (xs : List (Option Nat)) (r : Cells) (i v : Nat) (h : xs[i]? = some (some v)) :
    cellRead (some (xs ++ r)) i = .ok v := by
  have hi : i < xs.length := by
    rcases Nat.lt_or_ge i xs.length with h' | h'
    · exact h'
    · rw [List.getElem?_eq_none h'] at h; cases h
  simp only [cellRead, List.getElem?_append_left hi, h]

/-- the array that is used as it should be meets the specification of overflow tables -/
theorem lawful_ideal (c : ArrEnv) (junk : Nat → Nat) : LawfulOverflow (arrIdeal c junk) (fun v => v % 2 ^ c.vs) IdealRep where
  new := by
    intro kw vw
    refine ⟨fun _ => false, rfl, Nat.le_refl _, rfl, ⟨(List.range arrLength).map fun i => some (junk i % 2 ^ c.ks), rfl, ?_⟩,
      ⟨List.replicate arrLength none, rfl, ?_⟩, rfl, by simp⟩
    · rw [List.length_map, List.length_range]; rfl
    · rw [List.length_replicate]; rfl
  resize := by
    intro o n m full h _
    exact ⟨_, _, rfl, rfl, Nat.le_refl _, h.elems, h.keys, h.vals, rfl, by simp⟩
  clear := by
    intro o n l full h
    obtain ⟨r1, h1, h2⟩ := h.keys
    obtain ⟨r2, h3, h4⟩ := h.vals
    exact ⟨o.bits, rfl, Nat.zero_le _, rfl, ⟨_, h1, by simpa using h2⟩, ⟨_, h3, by simpa using h4⟩, rfl, by simp⟩
  pos := by
    intro o n l full e h he
    have h1 : e.1 ∈ l.map Prod.fst := List.mem_map.mpr ⟨e, he, rfl⟩
    rw [h.pos, List.mem_range] at h1
    obtain ⟨r, _, h2⟩ := h.keys
    have : arrLength = 256 := rfl
    have : NPOS = 2 ^ 64 - 1 := rfl
    omega
  pos_nodup := by
    intro o n l full h
    show (l.map Prod.fst).Nodup
    rw [h.pos]
    exact List.nodup_range
  size := fun o n l full h => h.elems
  consult := by
    intro o n l full b h hb
    have : b < o.nbits := Nat.lt_of_lt_of_le hb h.nbits
    simp only [arrIdeal, arrJunk, arrOverflow, if_pos this, h.bits]
  walk := by
    intro o n l full h
    have key : ∀ (l₂ l₁ : List (Nat × Nat × Nat)), l = l₁ ++ l₂ → OvWalk (arrIdeal c junk) o l₁.length l₂ := by
      intro l₂
      induction l₂ with
      | nil =>
        intro l₁ hl
        rw [List.append_nil] at hl
        subst hl
        show decide (l.length < o.elems) = false
        rw [h.elems]; simp
      | cons e l₂ ih =>
        intro l₁ hl
        refine ⟨(ov_pos_split h.pos hl).symm, ?_, ?_⟩
        · show decide (l₁.length < o.elems) = true
          rw [h.elems, hl]; simp
        · have := ih (l₁ ++ [e]) (by simp [hl])
          rw [List.length_append] at this
          exact this
    exact key l [] rfl
  find_in := by
    intro o n l full e h he
    obtain ⟨r, h1, h2⟩ := h.keys
    obtain ⟨l₁, l₂, rfl⟩ := List.append_of_mem he
    have hp := ov_pos_split h.pos rfl
    have hs := scan_front ((l₁ ++ e :: l₂).map fun e => e.2.1) r e.2.1 o.elems (by rw [h.elems]; simp)
    rw [List.map_map] at hs
    show scanFrom o.keys e.2.1 0 o.elems = _
    rw [h1]
    refine Eq.trans hs ?_
    rw [if_pos (by simp), hp]
    have hn := h.nodup
    rw [List.map_append, List.map_cons] at hn ⊢
    have hnm : e.2.1 ∉ l₁.map fun e => e.2.1 := by
      intro hm
      exact (List.nodup_append.mp hn).2.2 _ hm _ (by simp) rfl
    rw [idxOf_append_notMem hnm]
    simp
  find_out := by
    intro o n l full k h hk
    obtain ⟨r, h1, h2⟩ := h.keys
    have hs := scan_front (l.map fun e => e.2.1) r k o.elems (by rw [h.elems]; simp)
    rw [List.map_map] at hs
    show scanFrom o.keys k 0 o.elems = _
    rw [h1]
    refine Eq.trans hs ?_
    rw [if_neg]
    intro hm
    obtain ⟨e, he, rfl⟩ := List.mem_map.mp hm
    exact hk e he rfl
  read := by
    intro o n l full e h he
    obtain ⟨r, h1, h2⟩ := h.vals
    obtain ⟨l₁, l₂, rfl⟩ := List.append_of_mem he
    show cellRead o.vals e.1 = _
    rw [h1, ov_pos_split h.pos rfl]
    exact cellRead_front _ _ _ _ (by simp)
  key := by
    intro o n l full e h he
    obtain ⟨r, h1, h2⟩ := h.keys
    obtain ⟨l₁, l₂, rfl⟩ := List.append_of_mem he
    show cellRead o.keys e.1 = _
    rw [h1, ov_pos_split h.pos rfl]
    exact cellRead_front _ _ _ _ (by simp)
  insert := by
    intro o n l full b k v h hb hcap hk _
    right
    have hb' : b < o.nbits := Nat.lt_of_lt_of_le hb h.nbits
    have hcap' : l.length < arrLength := by rw [← h.elems]; exact hcap
    obtain ⟨r1, h1, h2⟩ := h.keys
    obtain ⟨r2, h3, h4⟩ := h.vals
    obtain ⟨a1, r1, rfl⟩ : ∃ a r, r1 = a :: r := by
      cases r1 with
      | nil => simp at h2; omega
      | cons a r => exact ⟨a, r, rfl⟩
    obtain ⟨a2, r2, rfl⟩ : ∃ a r, r2 = a :: r := by
      cases r2 with
      | nil => simp at h4; omega
      | cons a r => exact ⟨a, r, rfl⟩
    have e1 := cellWrite_append (l.map (fun e => some e.2.1)) r1 a1 k
    have e2 := cellWrite_append (l.map (fun e => some e.2.2)) r2 a2 (v % 2 ^ c.vs)
    rw [List.length_map] at e1 e2
    refine ⟨{ o with keys := some (l.map (fun e => some e.2.1) ++ some k :: r1),
                     vals := some (l.map (fun e => some e.2.2) ++ some (v % 2 ^ c.vs) :: r2),
                     elems := l.length + 1, bits := upd o.bits b true }, upd o.bits b true, l.length,
      l ++ [(l.length, k, v % 2 ^ c.vs)], ?_, ?_, List.perm_append_singleton _ _, ⟨rfl, h.nbits, ?_, ⟨r1, ?_, ?_⟩, ⟨r2, ?_, ?_⟩, ?_, ?_⟩,
      upd_same _ _ _, ?_⟩
    · simp only [arrIdeal, if_pos hb', h.elems, h1, h3, e1, e2, ok_bind, pure_eq_ok]
    · have : NPOS = 2 ^ 64 - 1 := rfl
      have : arrLength = 256 := rfl
      omega
    · simp
    · simp
    · simp only [List.length_cons, List.length_append, List.length_nil] at *; omega
    · simp
    · simp only [List.length_cons, List.length_append, List.length_nil] at *; omega
    · rw [List.map_append, h.pos, List.length_append, List.length_singleton, List.range_succ]; rfl
    · rw [List.map_append, List.nodup_append]
      refine ⟨h.nodup, by simp, ?_⟩
      intro x hx y hy
      obtain ⟨e, he, rfl⟩ := List.mem_map.mp hx
      simp only [List.map_cons, List.map_nil, List.mem_singleton] at hy
      rw [hy]
      exact hk e he
    · intro x hx
      rw [h.bits] at hx
      by_cases e : x = b
      · subst e; exact upd_same _ _ _
      · rw [upd_other _ _ e]; exact hx
  write := by
    intro o n l full v l₁ l₂ p k x h hl _
    have hp : p = l₁.length := ov_pos_split h.pos hl
    subst hl
    obtain ⟨r1, h1, h2⟩ := h.keys
    obtain ⟨r2, h3, h4⟩ := h.vals
    refine ⟨{ o with vals := some ((l₁ ++ (p, k, v % 2 ^ c.vs) :: l₂).map (fun e => some e.2.2) ++ r2) }, ?_,
      ⟨h.bits, h.nbits, by simpa using h.elems, ⟨r1, by simpa using h1, by simpa using h2⟩, ⟨r2, rfl, by simpa using h4⟩, ?_, ?_⟩⟩
    · have : p < ((l₁ ++ (p, k, x) :: l₂).map (fun e => some e.2.2) ++ r2).length := by simp [hp]
      simp only [arrIdeal, arrJunk, arrOverflow, plainOps, h3, cellWrite, if_pos this, ok_bind, pure_eq_ok]
      congr 3
      subst hp
      simp
    · have := h.pos
      simp only [List.map_append, List.map_cons, List.length_append, List.length_cons] at this ⊢
      exact this
    · have := h.nodup
      simp only [List.map_append, List.map_cons] at this ⊢
      exact this
  erase := by
    intro o n l full l₁ l₂ e h hl
    have hp : e.1 = l₁.length := ov_pos_split h.pos hl
    subst hl
    obtain ⟨r1, h1, h2⟩ := h.keys
    obtain ⟨r2, h3, h4⟩ := h.vals
    have hsnd : ((l₁ ++ l₂).zipIdx.map fun x => (x.2, x.1.2)).map Prod.snd = (l₁ ++ l₂).map Prod.snd := by
      rw [List.map_map]
      have : (Prod.snd ∘ fun x : (Nat × Nat × Nat) × Nat => (x.2, x.1.2)) = (Prod.snd ∘ Prod.fst) := rfl
      rw [this, ← List.map_map, List.zipIdx_map_fst]
    have hlen : ((l₁ ++ l₂).zipIdx.map fun x => (x.2, x.1.2)).length = l₁.length + l₂.length := by simp
    have hm : ∀ {β : Type} (f : Nat × Nat → β), ((l₁ ++ l₂).zipIdx.map fun x => (x.2, x.1.2)).map (fun y => f y.2) =
        (l₁ ++ l₂).map fun y => f y.2 := by
      intro β f
      have := congrArg (List.map f) hsnd
      simpa [List.map_map, Function.comp_def] using this
    refine ⟨_, (l₁ ++ l₂).zipIdx.map fun x => (x.2, x.1.2), rfl, hsnd, h.bits, h.nbits, ?_, ⟨r1 ++ [none], ?_, ?_⟩, ⟨r2 ++ [none], ?_, ?_⟩, ?_, ?_⟩
    · rw [hlen]
      show o.elems - 1 = _
      rw [h.elems]; simp
    · rw [hm (fun y => some y.1), h1, hp]
      simp [List.eraseIdx_append_of_length_le]
    · rw [hlen]; simp only [List.length_append, List.length_cons, List.length_nil] at h2 ⊢; omega
    · rw [hm (fun y => some y.2), h3, hp]
      simp [List.eraseIdx_append_of_length_le]
    · rw [hlen]; simp only [List.length_append, List.length_cons, List.length_nil] at h4 ⊢; omega
    · rw [hlen, List.map_map]
      have : (Prod.fst ∘ fun x : (Nat × Nat × Nat) × Nat => (x.2, x.1.2)) = Prod.snd := rfl
      rw [this, List.zipIdx_map_snd]
      simp [List.range_eq_range']
    · rw [hm (fun y => y.1)]
      refine List.Sublist.nodup ?_ h.nodup
      simp

/-! ## Where they agree -/

/-- all cells hold numbers, and those behind the elements are no keys of `K` -/
structure JunkOK (c : ArrEnv) (K : Nat → Prop) (o : ArrOv) : Prop where
  keys : ∃ xs ys : List Nat, o.keys = some (xs.map some ++ ys.map some) ∧ o.elems = xs.length ∧ xs.length + ys.length = arrLength ∧
    ∀ y ∈ ys, ¬ K y

/-- As long as the keys in use are none of the numbers that fresh memory holds, and nothing is erased or cleared, the
array of the library does what it should. -/
theorem junk_agree (c : ArrEnv) (junk : Nat → Nat) (K : Nat → Prop) (hK : ∀ k, K k → k < 2 ^ c.ks)
    (hj : ∀ i < arrLength, ¬ K (junk i % 2 ^ c.ks)) : OvAgree (arrJunk c junk) (arrIdeal c junk) K (JunkOK c K) where
  new := rfl
  resize := rfl
  consult := rfl
  size := rfl
  capacity := rfl
  first := rfl
  next := rfl
  valid := rfl
  read := rfl
  write := rfl
  key := rfl
  find := by
    intro o k h hk
    obtain ⟨xs, ys, h1, h2, h3, h4⟩ := h.keys
    have hy : k ∉ ys := fun h => h4 k h hk
    show scanFrom o.keys (k % 2 ^ c.ks) 0 arrLength = scanFrom o.keys k 0 o.elems
    rw [Nat.mod_eq_of_lt (hK k hk), h1, scan_all xs ys k _ h3.symm hy, scan_front xs _ k _ h2]
  insert := by
    intro o x k v h hk
    obtain ⟨xs, ys, h1, h2, h3, h4⟩ := h.keys
    by_cases hx : x < o.nbits
    · have e : (arrJunk c junk).insert o x k v = (arrIdeal c junk).insert o x k v := by
        simp only [arrJunk, arrIdeal, arrOverflow, plainOps, Nat.mod_eq_of_lt (hK k hk)]
      refine ⟨e, ?_⟩
      intro r hr
      simp only [arrIdeal, if_pos hx] at hr
      obtain ⟨ks, g1, hr⟩ := bind_eq_ok hr
      obtain ⟨vs, g2, hr⟩ := bind_eq_ok hr
      cases hr
      cases ys with
      | nil =>
        exfalso
        rw [h1] at g1
        simp only [cellWrite] at g1
        rw [if_neg (by rw [h2]; simp)] at g1
        cases g1
      | cons y ys =>
        refine ⟨⟨xs ++ [k], ys, ?_, ?_, ?_, fun y hy => h4 y (by simp [hy])⟩, ?_⟩
        · have e1 := cellWrite_append (xs.map some) (ys.map some) (some y) k
          rw [List.length_map] at e1
          rw [h1, h2, List.map_cons, e1] at g1
          cases g1
          simp
        · simp [h2]
        · simp only [List.length_append, List.length_cons, List.length_nil] at h3 ⊢; omega
        · show o.elems ≠ NPOS
          have : NPOS = 2 ^ 64 - 1 := rfl
          have : arrLength = 256 := rfl
          omega
    · refine ⟨?_, ?_⟩
      · simp only [arrJunk, arrIdeal, arrOverflow, if_neg hx]
      · intro r hr
        simp only [arrIdeal, if_neg hx] at hr
        cases hr
  gnew := by
    intro kw vw
    refine ⟨[], (List.range arrLength).map fun i => junk i % 2 ^ c.ks, ?_, rfl, by simp, ?_⟩
    · simp [arrIdeal, arrJunk, Function.comp_def]
    · intro y hy
      obtain ⟨i, hi, rfl⟩ := List.mem_map.mp hy
      exact hj i (List.mem_range.mp hi)
  gresize := by
    intro o n o' h hr
    cases hr
    exact ⟨h.keys⟩
  gwrite := by
    intro o p v o' h hr
    obtain ⟨vs, _, hr⟩ := bind_eq_ok hr
    cases hr
    exact ⟨h.keys⟩

end SC
