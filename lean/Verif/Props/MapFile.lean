import Verif.Overflow.MapSerial
import Verif.Props.Overflow
/-!
# C127: `map_overflow::deserialize` and files of the intended format

`serialize` does not write such files (C119); this is about the function that reads them.
-/
namespace SC
variable {c : MapEnv} {e : MapFileEnv}

/-- the keys and values of a file, one after the other -/
def pairBytes (e : MapFileEnv) (l : List (Nat × Nat)) : List Nat := l.flatMap (fun x => toBytes e.kbytes x.1 ++ toBytes e.vbytes x.2)

/-- the file for the pairs `l`: their number, then the pairs -/
def mapFile (e : MapFileEnv) (l : List (Nat × Nat)) : List Nat := toBytes 8 l.length ++ pairBytes e l

/-- the pairs can be written: keys and values fit into their types, no key is there twice -/
structure FilePairs (e : MapFileEnv) (l : List (Nat × Nat)) : Prop where
  key : ∀ x ∈ l, x.1 < 256 ^ e.kbytes
  val : ∀ x ∈ l, x.2 < 256 ^ e.vbytes
  nodup : (l.map Prod.fst).Nodup
  len : l.length < 2 ^ 64

theorem inj_of_nodup_keys : ∀ {l : List (Nat × Nat)}, (l.map Prod.fst).Nodup → ∀ {x y : Nat × Nat}, x ∈ l → y ∈ l → x.1 = y.1 → x = y := by
  intro l
  induction l with
  | nil => intro _ x y hx; cases hx
  | cons a l ih =>
    intro hn x y hx hy h
    have hn' := List.nodup_cons.mp (show (a.1 :: l.map Prod.fst).Nodup from hn)
    rcases List.mem_cons.mp hx with rfl | hx' <;> rcases List.mem_cons.mp hy with rfl | hy'
    · rfl
    · exact absurd (List.mem_map.mpr ⟨y, hy', h.symm⟩) hn'.1
    · exact absurd (List.mem_map.mpr ⟨x, hx', h⟩) hn'.1
    · exact ih hn'.2 hx' hy' h

theorem readPairs_ok (hc : c.good) {rest : List Nat} : ∀ {l : List (Nat × Nat)} {o : MapOv}, (∀ x ∈ l, x.1 < 256 ^ e.kbytes) →
    (∀ x ∈ l, x.2 < 256 ^ e.vbytes) → (l.map Prod.fst).Nodup → (∀ x ∈ l, ∀ y ∈ o.items, y.1 ≠ x.1) → 0 < o.count ∧ o.count < NPOS →
    ∃ o', MapOv.readPairs c e l.length o (pairBytes e l ++ rest) = .ok (o', rest) ∧
      o'.items = (l.map (fun x => (x.1, c.val x.2))).reverse ++ o.items ∧ o'.bits = o.bits ∧ o'.nbits = o.nbits ∧ 0 < o'.count ∧ o'.count < NPOS := by
  intro l
  induction l with
  | nil => intro o _ _ _ _ h; exact ⟨o, rfl, rfl, rfl, rfl, h⟩
  | cons x l ih =>
    intro o hk hv hn hd hp
    have hn' := List.nodup_cons.mp (show (x.1 :: l.map Prod.fst).Nodup from hn)
    have ek : ofBytes (toBytes e.kbytes x.1) = x.1 := by rw [ofBytes_toBytes]; exact Nat.mod_eq_of_lt (hk x (by simp))
    have ev : ofBytes (toBytes e.vbytes x.2) = x.2 := by rw [ofBytes_toBytes]; exact Nat.mod_eq_of_lt (hv x (by simp))
    have hany : o.items.any (fun y => y.1 == x.1) = false := by
      rw [List.any_eq_false]
      intro y hy h
      exact hd x (by simp) y hy (by simpa using h)
    obtain ⟨o', h1, h2, h3, h4, h5⟩ := ih (o := o.put c x.1 x.2) (fun y hy => hk y (by simp [hy])) (fun y hy => hv y (by simp [hy])) hn'.2
      (by
        intro y hy w hw
        unfold MapOv.put at hw
        rw [hany] at hw
        rcases List.mem_cons.mp hw with rfl | hw
        · intro h; exact hn'.1 (List.mem_map.mpr ⟨y, hy, h.symm⟩)
        · exact hd y (by simp [hy]) w hw)
      (by
        unfold MapOv.put
        rw [hany]
        show 0 < (if _ then _ else _) ∧ (if _ then _ else _) < NPOS
        split
        · exact hp
        · exact ⟨hc.grow_pos _ _, hc.grow_lt _ _⟩)
    refine ⟨o', ?_, ?_, ?_, ?_, h5⟩
    · simp only [List.length_cons, MapOv.readPairs, pairBytes, List.flatMap_cons, List.append_assoc]
      rw [takeBytes_append _ _ (toBytes_length _ _), ok_bind, takeBytes_append _ _ (toBytes_length _ _), ok_bind, ek, ev]
      exact h1
    · rw [h2]
      unfold MapOv.put
      rw [hany]
      simp
    · rw [h3]; unfold MapOv.put; rw [hany]; rfl
    · rw [h4]; unfold MapOv.put; rw [hany]; rfl

/-- the first element of the bucket of a stored key is that key's, if it is alone in the bucket -/
theorem head_alone {o : MapOv} {x : Nat × Nat} (hx : x ∈ o.items) (hn : (o.items.map Prod.fst).Nodup)
    (h : ∀ y ∈ o.items, c.bkt o.count y.1 = c.bkt o.count x.1 → y.1 = x.1) : o.head c (c.bkt o.count x.1) = some x := by
  unfold MapOv.head
  cases hf : o.items.find? (fun y => c.bkt o.count y.1 == c.bkt o.count x.1) with
  | none =>
    have := List.find?_eq_none.mp hf x hx
    simp at this
  | some y =>
    have hy := List.mem_of_find?_eq_some hf
    have e1 := h y hy (by simpa using List.find?_some hf)
    rw [Option.some.injEq]
    exact inj_of_nodup_keys hn hy hx e1

/-- a key that is found is stored -/
theorem find_stored {o : MapOv} {k pos : Nat} (h : (mapOverflow c).find o k = .ok pos) (hp : pos ≠ NPOS) :
    pos = c.bkt o.count k ∧ ∃ v, o.head c pos = some (k, v) := by
  simp only [mapOverflow] at h
  revert h
  cases hh : o.head c (c.bkt o.count k) with
  | none => intro h; exact absurd (Except.ok.inj h).symm hp
  | some y =>
    simp only
    split
    · intro h; exact absurd (Except.ok.inj h).symm hp
    · rename_i hne
      intro h
      have e1 := Except.ok.inj h
      subst e1
      refine ⟨rfl, y.2, ?_⟩
      rw [hh]
      have : y.1 = k := by simpa using hne
      rw [← this]

/-- What a user of the overflow table expects of a stored pair: its key is found, and at the position key and value are read. -/
def Found (c : MapEnv) (o : MapOv) (k v : Nat) : Prop :=
  ∃ pos, (mapOverflow c).find o k = .ok pos ∧ (mapOverflow c).validPosition o pos = true ∧ (mapOverflow c).key o pos = .ok k ∧
    (mapOverflow c).read o pos = .ok v

/-- **C127**, the part that is true: reading a file into an overflow table without elements takes exactly the bytes of the file, has no fault,
and `size()` is the number of pairs.  No other key is found.  The pairs are all found if and only if no two of the keys are in the same
bucket of the `std::unordered_map`.  No bucket of the hash table gets a mark.  Missing: that all pairs are found, see `C127_overflow_file_false`. -/
theorem C127_overflow_file_partial (hc : c.good) {l : List (Nat × Nat)} (hl : FilePairs e l) {o : MapOv} (ho : o.items = []) (rest : List Nat) :
    ∃ o', o.deserialize c e (mapFile e l ++ rest) = .ok (o', rest) ∧ (mapOverflow c).size o' = l.length ∧
      (∀ k pos, (∀ x ∈ l, x.1 ≠ k) → (mapOverflow c).find o' k = .ok pos → pos = NPOS) ∧
      ((∀ x ∈ l, Found c o' x.1 (x.2 % 2 ^ c.vbits)) ↔
        ∀ x ∈ l, ∀ y ∈ l, c.bkt ((mapOverflow c).capacity o') x.1 = c.bkt ((mapOverflow c).capacity o') y.1 → x = y) ∧
      ∀ b, (mapOverflow c).needConsult o' b = (mapOverflow c).needConsult o b := by
  have h0 : ofBytes (toBytes 8 l.length) = l.length := ofBytes8 hl.len
  obtain ⟨o', h1, h2, h3, h4, h5, h6⟩ := readPairs_ok (c := c) (e := e) (rest := rest) hc (l := l) (o := { o with count := c.grow o.count l.length })
    hl.key hl.val hl.nodup (by intro x _ y hy; simp [ho] at hy) ⟨hc.grow_pos _ _, hc.grow_lt _ _⟩
  have hi : o'.items = (l.map (fun x => (x.1, c.val x.2))).reverse := by rw [h2]; simp [ho]
  have hmem : ∀ {y : Nat × Nat}, y ∈ o'.items ↔ ∃ x ∈ l, (x.1, c.val x.2) = y := by
    intro y; rw [hi, List.mem_reverse, List.mem_map]
  have hnd : (o'.items.map Prod.fst).Nodup := by
    rw [hi, List.map_reverse, (List.reverse_perm _).nodup_iff, List.map_map]
    exact hl.nodup
  have hfst : ∀ {x y : Nat × Nat}, x ∈ l → y ∈ l → x.1 = y.1 → x = y := fun hx hy h => inj_of_nodup_keys hl.nodup hx hy h
  refine ⟨o', ?_, ?_, ?_, ?_, ?_⟩
  · unfold MapOv.deserialize mapFile
    rw [List.append_assoc, takeBytes_append _ _ (toBytes_length _ _), ok_bind]
    simp only [h0]
    exact h1
  · show o'.items.length = _
    rw [hi]; simp
  · intro k pos hk hf
    rcases Classical.em (pos = NPOS) with h | h
    · exact h
    · obtain ⟨_, v, hv⟩ := find_stored hf h
      obtain ⟨x, hx, ex⟩ := hmem.mp (List.mem_of_find?_eq_some hv)
      exact absurd (congrArg Prod.fst ex) (hk x hx)
  · have hlt : ∀ k, c.bkt o'.count k < o'.count := fun k => hc.bkt_lt _ _ h5
    show _ ↔ ∀ x ∈ l, ∀ y ∈ l, c.bkt o'.count x.1 = c.bkt o'.count y.1 → x = y
    constructor
    · intro h x hx y hy he
      obtain ⟨p1, a1, a2, _⟩ := h x hx
      obtain ⟨p2, b1, b2, _⟩ := h y hy
      have hne : ∀ {p}, (mapOverflow c).validPosition o' p = true → p ≠ NPOS := by
        intro p hp
        simp only [mapOverflow, Bool.and_eq_true, decide_eq_true_eq] at hp
        have := hp.1
        omega
      obtain ⟨e1, v1, f1⟩ := find_stored a1 (hne a2)
      obtain ⟨e2, v2, f2⟩ := find_stored b1 (hne b2)
      rw [e1, he, ← e2, f2] at f1
      exact hfst hx hy (congrArg Prod.fst (Option.some.inj f1)).symm
    · intro h x hx
      have hz : (x.1, c.val x.2) ∈ o'.items := hmem.mpr ⟨x, hx, rfl⟩
      have hh := head_alone (c := c) hz hnd (by
        intro y hy hb
        obtain ⟨w, hw, ew⟩ := hmem.mp hy
        subst ew
        rw [h w hw x hx hb])
      simp only at hh
      have hent : o'.entry c (c.bkt o'.count x.1) = .ok (x.1, c.val x.2) := by
        unfold MapOv.entry; rw [if_pos (hlt _), hh]
      refine ⟨c.bkt o'.count x.1, ?_, ?_, ?_, ?_⟩
      · simp [mapOverflow, hh]
      · simp [mapOverflow, hh, hlt]
      · simp [mapOverflow, hent]
      · simp [mapOverflow, hent, MapEnv.val]
  · intro b
    simp only [mapOverflow]
    rw [h3, h4]

/-- files of `ovEx`: keys of 2 bytes, values of 4 bytes -/
def mapFileE : MapFileEnv where
  kbytes := 2
  vbytes := 4
  visit _ ks := ks
  peek _ _ := none

example : ∃ o', ((mapOverflow ovEx).new 10 20).deserialize ovEx mapFileE (mapFile mapFileE [(3, 30), (4, 40), (8, 80)] ++ [1, 2]) = .ok (o', [1, 2]) ∧
    (mapOverflow ovEx).size o' = 3 ∧ (mapOverflow ovEx).find o' 5 = .ok NPOS := by
  obtain ⟨o', h1, h2, h3, _⟩ := C127_overflow_file_partial (e := mapFileE) ovEx_good (l := [(3, 30), (4, 40), (8, 80)])
    ⟨by decide, by decide, by decide, by decide⟩ (o := (mapOverflow ovEx).new 10 20) rfl [1, 2]
  refine ⟨o', h1, h2, ?_⟩
  obtain ⟨pos, hp⟩ : ∃ pos, (mapOverflow ovEx).find o' 5 = .ok pos := ⟨_, rfl⟩
  rw [hp, h3 5 pos (by decide) hp]

/-- **C127** is false: of a valid overflow table with two elements in different buckets, the elements are in the same bucket after reading, because
`reserve` chooses fewer buckets, and one of them is not found. -/
theorem C127_overflow_file_false : ¬ ∀ (o o' : MapOv) (n : Nat) (l : List (Nat × Nat × Nat)) (full : Nat → Bool), MapRep ovEx o n l full →
    FilePairs mapFileE o.items → ((mapOverflow ovEx).new 10 20).deserialize ovEx mapFileE (mapFile mapFileE o.items) = .ok (o', []) →
    ∀ x ∈ o.items, Found ovEx o' x.1 x.2 := by
  intro H
  have hfp : FilePairs mapFileE [(0, 10), (5, 20)] := ⟨by decide, by decide, by decide, by decide⟩
  obtain ⟨o', h1, _, _, h4, _⟩ := C127_overflow_file_partial (e := mapFileE) ovEx_good hfp (o := (mapOverflow ovEx).new 10 20) rfl []
  rw [List.append_nil] at h1
  have hcap : (match ((mapOverflow ovEx).new 10 20).deserialize ovEx mapFileE (mapFile mapFileE [(0, 10), (5, 20)]) with
    | .ok (o, _) => o.count == 2
    | .error _ => false) = true := by decide +kernel
  rw [h1] at hcap
  have hcount : (mapOverflow ovEx).capacity o' = 2 := show o'.count = 2 by simpa using hcap
  have hf := H { count := 16, items := [(0, 10), (5, 20)], bits := fun _ => true, nbits := 4 } o' 4 [(1, 0, 10), (6, 5, 20)] (fun _ => true)
    ⟨rfl, Nat.le_refl _, by decide, by decide, List.Perm.refl _, by decide, by decide⟩ hfp h1
  have hf' : ∀ x ∈ [(0, 10), (5, 20)], Found ovEx o' x.1 (x.2 % 2 ^ ovEx.vbits) := by
    intro x hx
    rw [Nat.mod_eq_of_lt (Nat.lt_of_lt_of_le (hfp.val x hx) (by decide))]
    exact hf x hx
  have := h4.mp hf' (0, 10) (by simp) (5, 20) (by simp) (by rw [hcount]; decide)
  cases this

end SC
