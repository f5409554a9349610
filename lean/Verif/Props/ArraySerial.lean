import Verif.Overflow.ArraySerial
import Verif.Props.Overflow
/-!
# Properties of `array_overflow::serialize` and `deserialize`: C97

`key_type` and `value_type` have `a.ks` and `a.vs` bits.
-/
namespace SC

variable {a : ArrEnv}

/-- an array that holds the pairs `l` and nothing else -/
theorem arr_content {o : ArrOv} {l : List (Nat × Nat)} (h1 : o.elems = l.length) (h2 : o.keys = some (l.map (fun e => some e.1)))
    (h3 : o.vals = some (l.map (fun e => some e.2))) : o.content a = .ok l := by
  unfold ArrOv.content
  rw [mapM_ok (h := fun i => l.getD i default)]
  · refine congrArg Except.ok (List.ext_getElem (by rw [List.length_map, List.length_range]; exact h1) ?_)
    intro i g1 g2
    simp [g2]
  · intro i hi
    have hi' : i < l.length := by rw [← h1]; exact List.mem_range.mp hi
    simp [arrOverflow, plainOps, cellRead, h2, h3, hi', ok_bind, pure_eq_ok]

theorem arr_scan (l : List (Nat × Nat)) (k m : Nat) (hl : l.length ≤ 256) :
    scanFrom (some (l.map (fun e => some e.1))) k 0 (l.length + (m + 1)) =
      if k ∈ l.map Prod.fst then .ok ((l.map Prod.fst).idxOf k) else .error .oob := by
  have hl : l.length < NPOS := Nat.lt_of_le_of_lt hl (by decide)
  have := scanFrom_eq k (l.map Prod.fst) [] []
  have e : (l.map Prod.fst).map some = l.map (fun e => some e.1) := by simp
  rw [e] at this
  simp only [List.nil_append, List.append_nil, List.length_nil, List.length_map, Nat.zero_add] at this
  rcases scanFrom_split (some (l.map (fun e => some e.1))) k l.length (m + 1) 0 with h | h
  · rw [h, this, ok_bind]
    split
    · rename_i hm
      have hidx := List.idxOf_lt_length_of_mem hm
      rw [List.length_map] at hidx
      rw [if_neg (by omega)]
      rfl
    · rw [if_pos rfl]
      simp [scanFrom, cellRead, error_bind]
  · omega

theorem arr_find_in {o : ArrOv} {l : List (Nat × Nat)} {k : Nat} (hk : k ∈ l.map Prod.fst) (hle : l.length ≤ arrLength) (hlt : k < 2 ^ a.ks)
    (h : o.keys = some (l.map (fun e => some e.1))) : (arrOverflow a).find o k = .ok ((l.map Prod.fst).idxOf k) := by
  simp only [arrOverflow, plainOps, h, Nat.mod_eq_of_lt hlt]
  by_cases hl : l.length = arrLength
  · have := scanFrom_eq k (l.map Prod.fst) [] []
    have e : (l.map Prod.fst).map some = l.map (fun e => some e.1) := by simp
    rw [e] at this
    simp only [List.nil_append, List.append_nil, List.length_nil, List.length_map, Nat.zero_add, if_pos hk] at this
    rw [← hl]
    exact this
  · have := arr_scan l k (arrLength - l.length - 1) hle
    rw [show l.length + (arrLength - l.length - 1 + 1) = arrLength by omega, if_pos hk] at this
    exact this

/-- **C97**, the part that holds: into whatever object the bytes are read and whatever follows in the stream, exactly the bytes written are
consumed, and the object read has the same size, the same pairs at the same positions, finds every stored key where the original has it, and
values can be overwritten.  Missing: what else is done with an overflow table (see below). -/
theorem C97_array_serialize_partial (hk : 8 ∣ a.ks) (hv : 8 ∣ a.vs) {o : ArrOv} (h : ArrReach a o) :
    ∃ l bytes, o.content a = .ok l ∧ o.serialize a = .ok bytes ∧ ∀ (o0 : ArrOv) (rest : List Nat), ∃ o',
      o0.deserialize a (bytes ++ rest) = .ok (o', rest) ∧ (arrOverflow a).size o' = (arrOverflow a).size o ∧ o'.content a = .ok l ∧
      (∀ k ∈ l.map Prod.fst, (arrOverflow a).find o' k = (arrOverflow a).find o k) ∧
      ∀ (p v : Nat) (hp : p < l.length), ∃ o'', (arrOverflow a).write o' p v = .ok o'' ∧
        o''.content a = .ok (l.set p (l[p].1, v % 2 ^ a.vs)) := by
  obtain ⟨l, hl⟩ := h.rep
  obtain ⟨bytes, h1, h2⟩ := hl.serialize hk hv
  refine ⟨l, bytes, hl.content, h1, fun o0 rest => ⟨_, h2 o0 rest, hl.elems.symm, ?_, ?_, ?_⟩⟩
  · exact arr_content rfl rfl rfl
  · intro k hk'
    obtain ⟨e, he, rfl⟩ := List.mem_map.mp hk'
    have hlt : e.1 % 2 ^ a.ks = e.1 := Nat.mod_eq_of_lt (hl.lt e he).1
    have f1 := hl.find_in (k := e.1) (by rw [hlt]; exact hk')
    have hle : l.length ≤ arrLength := by obtain ⟨r, _, h⟩ := hl.keys; omega
    rw [f1, hlt]
    exact arr_find_in hk' hle (hl.lt e he).1 rfl
  · intro p v hp
    have : p < (l.map (fun e => some e.2)).length := by simpa using hp
    refine ⟨{ o0 with keys := some (l.map (fun e => some e.1)), vals := some ((l.map (fun e => some e.2)).set p (some (v % 2 ^ a.vs))), elems := l.length }, ?_, ?_⟩
    · simp only [arrOverflow, plainOps, cellWrite, if_pos this, ok_bind, pure_eq_ok]
    · refine arr_content ?_ ?_ ?_
      · simp
      · show some _ = some _
        rw [List.map_set]
        congr 1
        refine (List.ext_getElem (by simp) ?_)
        intro i g1 g2
        rw [List.getElem_set]
        split
        · subst p; simp
        · rfl
      · show some _ = some _
        rw [List.map_set]

/-- the example of `Verif.Props.Overflow` with three pairs, read into a new object -/
example : ∃ o l bytes o', ArrReach arrEx o ∧ o.content arrEx = .ok l ∧ l.length = 3 ∧ o.serialize arrEx = .ok bytes ∧
    ((arrOverflow arrEx).new 8 8).deserialize arrEx (bytes ++ []) = .ok (o', []) ∧ o'.content arrEx = .ok l := by
  obtain ⟨o, h1, h2, h3⟩ := arrEx_reach
  obtain ⟨l, bytes, g1, g2, g3⟩ := C97_array_serialize_partial (by decide) (by decide) h1
  obtain ⟨o', e1, e2, e3, _⟩ := g3 ((arrOverflow arrEx).new 8 8) []
  have hl := g1
  rw [h3] at hl
  cases hl
  exact ⟨o, _, bytes, o', h1, g1, rfl, g2, e1, e3⟩

/-- **C97** is false for insertions: whatever was written, the first insertion into an array that has been read writes behind the end of the
arrays, although `size() < capacity()`. -/
theorem C97_array_insert_not (hk : 8 ∣ a.ks) (hv : 8 ∣ a.vs) {o : ArrOv} (h : ArrReach a o)
    (hs : (arrOverflow a).size o < (arrOverflow a).capacity o) :
    ∃ bytes, o.serialize a = .ok bytes ∧ ∀ (o0 : ArrOv) (rest : List Nat), ∃ o', o0.deserialize a (bytes ++ rest) = .ok (o', rest) ∧
      (arrOverflow a).size o' < (arrOverflow a).capacity o' ∧
      ∀ b k v : Nat, b < o'.nbits → (arrOverflow a).insert o' b k v = .error .oob := by
  obtain ⟨l, hl⟩ := h.rep
  obtain ⟨bytes, h1, h2⟩ := hl.serialize hk hv
  refine ⟨bytes, h1, fun o0 rest => ⟨_, h2 o0 rest, ?_, ?_⟩⟩
  · have : o.elems < 256 := hs
    show l.length < 256
    rw [← hl.elems]
    exact this
  · intro b k v hb
    have hb : b < o0.nbits := hb
    simp [arrOverflow, plainOps, cellWrite, error_bind]

/-- **C97** is false for `find` of a key that is not stored: unless all 256 entries are in use, it reads behind the end of the array. -/
theorem C97_array_find_not (hk : 8 ∣ a.ks) (hv : 8 ∣ a.vs) {o : ArrOv} (h : ArrReach a o)
    (hs : (arrOverflow a).size o < (arrOverflow a).capacity o) {l : List (Nat × Nat)} (hl : o.content a = .ok l) :
    ∃ bytes, o.serialize a = .ok bytes ∧ ∀ (o0 : ArrOv) (rest : List Nat), ∃ o', o0.deserialize a (bytes ++ rest) = .ok (o', rest) ∧
      ∀ k < 2 ^ a.ks, k ∉ l.map Prod.fst → (arrOverflow a).find o' k = .error .oob := by
  obtain ⟨l', hl'⟩ := h.rep
  rw [hl'.content] at hl
  cases hl
  obtain ⟨bytes, h1, h2⟩ := hl'.serialize hk hv
  refine ⟨bytes, h1, fun o0 rest => ⟨_, h2 o0 rest, ?_⟩⟩
  intro k hk' hm
  have hlt : l.length < 256 := by rw [← hl'.elems]; exact hs
  have := arr_scan l k (255 - l.length) (by omega)
  rw [show l.length + (255 - l.length + 1) = 256 by omega, if_neg hm] at this
  simp only [arrOverflow, plainOps, Nat.mod_eq_of_lt hk']
  exact this

/-- **C97** is false for `need_consult`: for the bucket of the stored pair it gives true before writing and false after reading into a new
overflow table for the same number of buckets. -/
theorem C97_array_consult_not : ∃ o o0 bytes o', ArrReach arrEx o ∧ ArrReach arrEx o0 ∧ o.nbits = o0.nbits ∧
    (arrOverflow arrEx).needConsult o 2 = .ok true ∧ o.serialize arrEx = .ok bytes ∧ o0.deserialize arrEx (bytes ++ []) = .ok (o', []) ∧
    (arrOverflow arrEx).needConsult o' 2 = .ok false := by
  have r0 := ArrReach.resize (a := arrEx) 4 (ArrReach.new 8 8) rfl
  obtain ⟨l, hl⟩ := r0.rep
  obtain ⟨o, h1, h2⟩ := hl.insert (b := 2) (k := 1) (v := 10) (by decide) (by decide)
  have r1 := r0.insert 2 1 10 (by decide) (by decide) h1
  have hb : o.nbits = 4 ∧ o.bits 2 = true := by
    simp only [arrOverflow, if_pos (show 2 < 4 by decide)] at h1
    obtain ⟨_, _, h1⟩ := bind_eq_ok h1
    obtain ⟨_, _, h1⟩ := bind_eq_ok h1
    have h1 : _ = o := congrArg Prod.fst (Except.ok.inj h1)
    rw [← h1]
    exact ⟨rfl, rfl⟩
  obtain ⟨bytes, g1, g2⟩ := h2.serialize (by decide) (by decide)
  refine ⟨o, _, bytes, _, r1, r0, hb.1, ?_, g1, g2 _ [], rfl⟩
  simp only [arrOverflow, hb.1, hb.2, if_pos (show 2 < 4 by decide)]

/-- the example meets the hypotheses; the key 5 is not stored -/
example : ∃ o bytes o', ArrReach arrEx o ∧ o.elems = 3 ∧ o.serialize arrEx = .ok bytes ∧
    ((arrOverflow arrEx).new 8 8).deserialize arrEx (bytes ++ []) = .ok (o', []) ∧ (arrOverflow arrEx).find o' 5 = .error .oob := by
  obtain ⟨o, h1, h2, h3⟩ := arrEx_reach
  obtain ⟨bytes, g1, g2⟩ := C97_array_find_not (by decide) (by decide) h1 (by show o.elems < 256; omega) h3
  obtain ⟨o', e1, e2⟩ := g2 ((arrOverflow arrEx).new 8 8) []
  exact ⟨o, bytes, o', h1, h2, g1, e1, e2 5 (by decide) (by decide)⟩

end SC
