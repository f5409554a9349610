import Verif.Bucket.Plain
/-! # Plain, class, AVX2 and null buckets are lawful -/
namespace SC

theorem posOf_nil (x : Nat) : posOf [] x = NPOS := by simp [posOf]

theorem posOf_cons (y : Nat) (xs : List Nat) (x : Nat) :
    posOf (y :: xs) x = if y = x then 0 else if x ∈ xs then xs.idxOf x + 1 else NPOS := by
  unfold posOf
  by_cases h : y = x
  · subst h; simp
  · have h' : x ≠ y := fun e => h e.symm
    by_cases h2 : x ∈ xs
    · simp [h, h2, List.idxOf_cons, beq_eq_false_iff_ne.mpr h]
    · simp [h, h', h2]

theorem idxOf_append_mem {a b : List Nat} {x : Nat} (h : x ∈ a) : (a ++ b).idxOf x = a.idxOf x := by
  rw [List.idxOf_append, if_pos h]

theorem idxOf_append_notMem {a b : List Nat} {x : Nat} (h : x ∉ a) : (a ++ b).idxOf x = a.length + b.idxOf x := by
  rw [List.idxOf_append, if_neg h, Nat.add_comm]

/-! ## bytes -/

theorem toBytes_length (n x : Nat) : (toBytes n x).length = n := by
  induction n generalizing x with
  | zero => rfl
  | succ n ih => simp [toBytes, ih]

theorem ofBytes_toBytes (n x : Nat) : ofBytes (toBytes n x) = x % 256 ^ n := by
  induction n generalizing x with
  | zero => simp [toBytes, ofBytes, Nat.mod_one]
  | succ n ih =>
    simp only [toBytes, ofBytes, ih]
    rw [Nat.pow_succ, Nat.mul_comm (256 ^ n) 256, Nat.mod_mul]

theorem ofBytes_toBytes_of_lt {sbits x : Nat} (h8 : 8 ∣ sbits) (hx : x < 2 ^ sbits) :
    ofBytes (toBytes (sbits / 8) x) = x := by
  rw [ofBytes_toBytes, show (256 : Nat) = 2 ^ 8 by rfl, ← Nat.pow_mul, Nat.mul_div_cancel' h8]
  exact Nat.mod_eq_of_lt hx

theorem takeBytes_append (xs rest : List Nat) {n : Nat} (h : xs.length = n) :
    takeBytes n (xs ++ rest) = .ok (xs, rest) := by
  subst h; simp [takeBytes]

/-! ## cells -/

/-- Abstraction of plain buckets. -/
def PlainRep (sbits : Nat) (b : PlainB) (_w cap : Nat) (xs : List Nat) : Prop :=
  ∃ rest : Cells, b = some (xs.map some ++ rest) ∧ xs.length + rest.length = cap ∧ ∀ x ∈ xs, x < 2 ^ sbits

theorem cellRead_append (pre rest : Cells) (y : Nat) : cellRead (some (pre ++ some y :: rest)) pre.length = .ok y := by
  simp [cellRead]

theorem cellRead_rep {xs : List Nat} {rest : Cells} {i : Nat} (h : i < xs.length) :
    cellRead (some (xs.map some ++ rest)) i = .ok xs[i] := by
  simp [cellRead, List.getElem?_append_left, h]

theorem cellWrite_append (pre rest : Cells) (c : Option Nat) (y : Nat) :
    cellWrite (some (pre ++ c :: rest)) pre.length y = .ok (some (pre ++ some y :: rest)) := by
  simp [cellWrite]

theorem eraseLoop_eq (ys : List Nat) : ∀ (pre : Cells) (a : Option Nat) (rest : Cells),
    ∃ z, plainEraseLoop (some (pre ++ a :: (ys.map some ++ rest))) (pre.length + 1) ys.length
      = .ok (some (pre ++ (ys.map some ++ z :: rest))) := by
  induction ys with
  | nil => intro pre a rest; exact ⟨a, by simp [plainEraseLoop]⟩
  | cons y ys ih =>
    intro pre a rest
    obtain ⟨z, hz⟩ := ih (pre ++ [some y]) (some y) rest
    refine ⟨z, ?_⟩
    simp only [List.length_cons, plainEraseLoop, List.map_cons, List.cons_append]
    have h1 : cellRead (some (pre ++ a :: some y :: (ys.map some ++ rest))) (pre.length + 1) = .ok y := by
      simp [cellRead]
    rw [h1]
    simp only [ok_bind, Nat.add_sub_cancel, cellWrite_append]
    have h2 : pre ++ some y :: some y :: (List.map some ys ++ rest)
        = (pre ++ [some y]) ++ some y :: (List.map some ys ++ rest) := by simp
    rw [h2, show pre.length + 1 + 1 = (pre ++ [some y]).length + 1 by simp, hz]
    simp

theorem plainErase_rep {sbits : Nat} {b : PlainB} {w cap : Nat} {xs : List Nat} {p : Nat}
    (h : PlainRep sbits b w cap xs) (hp : p < xs.length) :
    ∃ b', plainErase b p xs.length = .ok b' ∧ PlainRep sbits b' w cap (xs.eraseIdx p) := by
  obtain ⟨rest, rfl, hlen, hlt⟩ := h
  have hsplit : xs.map some ++ rest
      = (xs.take p).map some ++ (some xs[p] :: ((xs.drop (p + 1)).map some ++ rest)) := by
    have e : xs = xs.take p ++ (xs[p] :: xs.drop (p + 1)) := by
      rw [← List.drop_eq_getElem_cons hp, List.take_append_drop]
    have e2 := congrArg (List.map some) e
    rw [List.map_append, List.map_cons] at e2
    rw [e2]; simp only [List.append_assoc, List.cons_append]
  obtain ⟨z, hz⟩ := eraseLoop_eq (xs.drop (p + 1)) ((xs.take p).map some) (some xs[p]) rest
  refine ⟨_, ?_, z :: rest, rfl, ?_, ?_⟩
  · unfold plainErase
    rw [hsplit]
    have e1 : ((xs.take p).map some).length = p := by simp; omega
    have e2 : (xs.drop (p + 1)).length = xs.length - (p + 1) := by simp
    rw [e1, e2] at hz
    rw [hz, List.eraseIdx_eq_take_drop_succ]
    simp
  · rw [List.length_eraseIdx_of_lt hp]; simp; omega
  · intro x hx
    exact hlt x (List.mem_of_mem_eraseIdx hx)

theorem scanFrom_eq (key : Nat) (ys : List Nat) : ∀ (pre rest : Cells),
    scanFrom (some (pre ++ (ys.map some ++ rest))) key pre.length ys.length
      = .ok (if key ∈ ys then pre.length + ys.idxOf key else NPOS) := by
  induction ys with
  | nil => intro pre rest; simp [scanFrom]
  | cons y ys ih =>
    intro pre rest
    simp only [List.length_cons, scanFrom, List.map_cons, List.cons_append, cellRead_append, ok_bind]
    by_cases h : y = key
    · subst h; simp
    · rw [if_neg h]
      have h2 : pre ++ some y :: (List.map some ys ++ rest)
        = (pre ++ [some y]) ++ (List.map some ys ++ rest) := by simp
      have := ih (pre ++ [some y]) rest
      rw [h2, show pre.length + 1 = (pre ++ [some y]).length by simp, this]
      have h' : key ≠ y := fun e => h e.symm
      by_cases hk : key ∈ ys
      · simp [hk, List.idxOf_cons, beq_eq_false_iff_ne.mpr h]; omega
      · simp [hk, h']

theorem scan_posOf (key : Nat) (xs : List Nat) (rest : Cells) :
    scanFrom (some (xs.map some ++ rest)) key 0 xs.length = .ok (posOf xs key) := by
  have := scanFrom_eq key xs [] rest
  simpa [posOf] using this

theorem plainSerialize_eq {sbits : Nat} (h8 : 8 ∣ sbits) (ys : List Nat) (hys : ∀ y ∈ ys, y < 2 ^ sbits) :
    ∀ (pre rest : Cells), ∃ bytes,
    plainSerialize sbits (some (pre ++ (ys.map some ++ rest))) pre.length ys.length = .ok bytes ∧
    ∀ s, plainDeserialize sbits ys.length (bytes ++ s) = .ok (ys.map some, s) := by
  induction ys with
  | nil => intro pre rest; exact ⟨[], rfl, fun s => rfl⟩
  | cons y ys ih =>
    intro pre rest
    obtain ⟨bytes, h1, h2⟩ := ih (fun z hz => hys z (List.mem_cons_of_mem _ hz)) (pre ++ [some y]) rest
    refine ⟨toBytes (sbits / 8) y ++ bytes, ?_, ?_⟩
    · simp only [List.length_cons, plainSerialize, List.map_cons, List.cons_append, cellRead_append, ok_bind]
      have e : pre ++ some y :: (List.map some ys ++ rest)
        = (pre ++ [some y]) ++ (List.map some ys ++ rest) := by simp
      rw [e, show pre.length + 1 = (pre ++ [some y]).length by simp, h1]
      rfl
    · intro s
      simp only [List.length_cons, plainDeserialize, List.append_assoc]
      rw [takeBytes_append _ _ (toBytes_length _ _)]
      simp only [ok_bind, h2 s, pure_eq_ok]
      rw [ofBytes_toBytes_of_lt h8 (hys y (by simp))]
      rfl

/-- `plain_bucket` obeys the bucket laws. -/
theorem lawful_plain {sbits : Nat} (h8 : 8 ∣ sbits) :
    LawfulBucket (plainOps sbits) (fun _ x => x % 2 ^ sbits) (PlainRep sbits) where
  init := by
    intro len w w' _ _ _
    exact ⟨_, rfl, List.replicate len none, by simp, by simp, by simp⟩
  resize := by
    intro b w cap xs new _ _ ⟨rest, hb, hlen, hlt⟩ hnew _
    subst hb
    refine ⟨_, rfl, (rest.take (new - xs.length)) ++ List.replicate (new - (xs.map some ++ rest).length) none, ?_, ?_, hlt⟩
    · congr 1
      rw [List.take_append, List.take_of_length_le (by simpa using hnew)]
      simp
    · simp; omega
  write_new := by
    intro b w cap xs x _ _ ⟨rest, hb, hlen, hlt⟩ hcap _
    subst hb
    cases rest with
    | nil => simp at hlen; omega
    | cons c rest =>
      refine ⟨_, ?_, rest, rfl, ?_, ?_⟩
      · have := cellWrite_append (xs.map some) rest c (x % 2 ^ sbits)
        simpa [plainOps] using this
      · simp at hlen ⊢; omega
      · intro y hy
        rcases List.mem_append.mp hy with h | h
        · exact hlt y h
        · rw [List.mem_singleton.mp h]; exact Nat.mod_lt _ (Nat.two_pow_pos _)
  write_old := by
    intro b w cap xs x i _ _ ⟨rest, hb, hlen, hlt⟩ hi _
    subst hb
    refine ⟨_, ?_, rest, rfl, ?_, ?_⟩
    · simp only [plainOps, cellWrite]
      rw [if_pos (by simp; omega), List.set_append_left _ _ (by simpa using hi)]
      simp [List.map_set]
    · simpa using hlen
    · intro y hy
      rcases List.mem_or_eq_of_mem_set hy with h | h
      · exact hlt y h
      · rw [h]; exact Nat.mod_lt _ (Nat.two_pow_pos _)
  read := by
    intro b w cap xs i _ _ ⟨rest, hb, hlen, hlt⟩ hi
    subst hb
    exact cellRead_rep hi
  erase := by
    intro b w cap xs p _ _ h hp _
    exact plainErase_rep h hp
  cap_ge := by
    intro b w cap xs ⟨rest, hb, hlen, hlt⟩; omega
  serialize := by
    intro b w cap xs rest' _ _ ⟨rest, hb, hlen, hlt⟩ _
    subst hb
    obtain ⟨bytes, h1, h2⟩ := plainSerialize_eq h8 xs hlt [] rest
    refine ⟨bytes, some (xs.map some), by simpa [plainOps] using h1, ?_, [], by simp, by simp, hlt⟩
    simp only [plainOps, h2 rest', ok_bind, pure_eq_ok]

theorem lawful_plain_find (sbits : Nat) :
    LawfulFind (plainOps sbits) (fun _ x => x % 2 ^ sbits) (PlainRep sbits) where
  find := by
    intro b w cap xs x _ _ ⟨rest, hb, hlen, hlt⟩ hx
    subst hb
    simp only [plainOps, hx]
    exact scan_posOf x xs rest
  find_empty := fun _ _ _ => rfl

theorem lawful_class_find (sbits : Nat) :
    LawfulFind (classOps sbits) (fun _ x => x % 2 ^ sbits) (PlainRep sbits) where
  find := (lawful_plain_find sbits).find
  find_empty := (lawful_plain_find sbits).find_empty

/-! ## class_bucket -/

theorem classResizeLoop_eq (ys : List Nat) : ∀ (pre dpre : Cells) (rest drest : Cells),
    pre.length = dpre.length → ys.length ≤ drest.length →
    classResizeLoop (some (pre ++ (ys.map some ++ rest))) (dpre ++ drest) pre.length ys.length
      = .ok (dpre ++ (ys.map some ++ drest.drop ys.length)) := by
  induction ys with
  | nil => intro pre dpre rest drest _ _; simp [classResizeLoop]
  | cons y ys ih =>
    intro pre dpre rest drest hl hd
    cases drest with
    | nil => simp at hd
    | cons d drest =>
      simp only [List.length_cons, classResizeLoop, List.map_cons, List.cons_append]
      have e1 : (pre ++ some y :: (List.map some ys ++ rest))[pre.length]? = some (some y) := by simp
      rw [e1]
      simp only
      rw [if_pos (by simp; omega)]
      have e2 : (dpre ++ d :: drest).set pre.length (some y) = (dpre ++ [some y]) ++ drest := by
        rw [hl]; simp
      have e3 : pre ++ some y :: (List.map some ys ++ rest)
        = (pre ++ [some y]) ++ (List.map some ys ++ rest) := by simp
      rw [e2, e3, show pre.length + 1 = (pre ++ [some y]).length by simp,
        ih (pre ++ [some y]) (dpre ++ [some y]) rest drest (by simp [hl]) (by simpa using hd)]
      simp

theorem lawful_class {sbits : Nat} (h8 : 8 ∣ sbits) :
    LawfulBucket (classOps sbits) (fun _ x => x % 2 ^ sbits) (PlainRep sbits) :=
  { lawful_plain h8 with
    resize := by
      intro b w cap xs new _ _ ⟨rest, hb, hlen, hlt⟩ hnew _
      subst hb
      have := classResizeLoop_eq xs [] [] rest (List.replicate new none) rfl (by simpa using hnew)
      refine ⟨some (xs.map some ++ (List.replicate new none).drop xs.length), ?_, _, rfl, ?_, hlt⟩
      · simp only [classOps, classResize]
        simp only [List.nil_append, List.length_nil] at this
        rw [this]; rfl
      · simp; omega }

/-! ## avx2_bucket -/

theorem alignedCopyTail_eq (ys : List (Option Nat)) : ∀ (pre dpre rest drest : List (Option Nat)),
    pre.length = dpre.length → ys.length ≤ drest.length →
    alignedCopyTail (pre ++ (ys ++ rest)) (dpre ++ drest) pre.length ys.length
      = .ok (dpre ++ (ys ++ drest.drop ys.length)) := by
  induction ys with
  | nil => intro pre dpre rest drest _ _; simp [alignedCopyTail]
  | cons y ys ih =>
    intro pre dpre rest drest hl hd
    cases drest with
    | nil => simp at hd
    | cons d drest =>
      simp only [List.length_cons, alignedCopyTail, List.cons_append]
      have e1 : (pre ++ y :: (ys ++ rest))[pre.length]? = some y := by simp
      rw [e1]
      simp only
      rw [if_pos (by simp; omega)]
      have e2 : (dpre ++ d :: drest).set pre.length y = (dpre ++ [y]) ++ drest := by rw [hl]; simp
      have e3 : pre ++ y :: (ys ++ rest) = (pre ++ [y]) ++ (ys ++ rest) := by simp
      rw [e2, e3, show pre.length + 1 = (pre ++ [y]).length by simp,
        ih (pre ++ [y]) (dpre ++ [y]) rest drest (by simp [hl]) (by simpa using hd)]
      simp

theorem alignedCopyWords_eq (n : Nat) : ∀ (i : Nat) (src dst : List (Option Nat)),
    i * 8 + n * 8 ≤ src.length → i * 8 + n * 8 ≤ dst.length → dst.take (i * 8) = src.take (i * 8) →
    alignedCopyWords src dst i n = .ok (src.take ((i + n) * 8) ++ dst.drop ((i + n) * 8)) := by
  induction n with
  | zero =>
    intro i src dst _ _ h
    simp only [alignedCopyWords, Nat.add_zero, ← h, List.take_append_drop]
  | succ n ih =>
    intro i src dst hs hd h
    simp only [alignedCopyWords]
    rw [if_pos (by omega)]
    have e1 : dst.take (i * 8) ++ (src.drop (i * 8)).take 8 = src.take (i * 8 + 8) := by
      rw [h, List.take_add]
    rw [e1, ih (i + 1) src _ (by omega) (by simp; omega) ?_]
    · rw [List.drop_append, List.drop_of_length_le (by simp; omega)]
      simp only [List.nil_append, List.length_take, List.drop_drop]
      congr 3 <;> omega
    · rw [List.take_append_of_le_length (by simp; omega), List.take_of_length_le (by simp; omega)]
      congr 1; omega

/-- `aligned_realloc` copies exactly the first `oldsize` bytes. -/
theorem alignedRealloc_eq (src : List (Option Nat)) {oldsize size : Nat} (h1 : oldsize ≤ src.length) (h2 : oldsize ≤ size) :
    alignedRealloc src oldsize size = .ok (src.take oldsize ++ List.replicate (size - oldsize) none) := by
  have hw : oldsize / 8 * 8 ≤ oldsize := Nat.div_mul_le_self _ _
  unfold alignedRealloc
  rw [alignedCopyWords_eq (oldsize / 8) 0 src _ (by omega) (by simp; omega) (by simp)]
  simp only [Nat.zero_add, ok_bind]
  generalize oldsize / 8 * 8 = m at hw
  have hs : src = src.take m ++ ((src.drop m).take (oldsize - m) ++ src.drop oldsize) := by
    conv => lhs; rw [← List.take_append_drop m src, ← List.take_append_drop (oldsize - m) (src.drop m)]
    rw [List.drop_drop]; congr 3; omega
  have key := alignedCopyTail_eq ((src.drop m).take (oldsize - m)) (src.take m) (src.take m) (src.drop oldsize)
    ((List.replicate size none).drop m) rfl (by simp; omega)
  rw [← hs] at key
  have l1 : (src.take m).length = m := by simp; omega
  have l2 : ((src.drop m).take (oldsize - m)).length = oldsize - m := by simp; omega
  rw [l1, l2] at key
  rw [key]
  congr 1
  rw [← List.append_assoc, ← List.take_add, List.drop_drop, show m + (oldsize - m) = oldsize by omega]
  simp

theorem cellsToBytes_append (sz : Nat) (a b : Cells) : cellsToBytes sz (a ++ b) = cellsToBytes sz a ++ cellsToBytes sz b := by
  induction a with
  | nil => rfl
  | cons c a ih => cases c <;> simp [cellsToBytes, ih]

theorem cellsToBytes_length (sz : Nat) (a : Cells) : (cellsToBytes sz a).length = sz * a.length := by
  induction a with
  | nil => rfl
  | cons c a ih => cases c <;> simp [cellsToBytes, ih, toBytes_length, Nat.mul_succ] <;> omega

theorem allSome_map (l : List Nat) : allSome (l.map some) = some l := by
  induction l with
  | nil => rfl
  | cons x l ih => simp [allSome, ih]

theorem bytesToCells_cells {sbits : Nat} (h8 : 8 ∣ sbits) (ys : List Nat) (hys : ∀ y ∈ ys, y < 2 ^ sbits)
    (n : Nat) (rest : List (Option Nat)) :
    bytesToCells (sbits / 8) (ys.length + n) (cellsToBytes (sbits / 8) (ys.map some) ++ rest)
      = ys.map some ++ bytesToCells (sbits / 8) n rest := by
  induction ys with
  | nil => simp [cellsToBytes]
  | cons y ys ih =>
    have hy := ih (fun z hz => hys z (List.mem_cons_of_mem _ hz))
    simp only [List.length_cons, List.map_cons, cellsToBytes, show ys.length + 1 + n = (ys.length + n) + 1 by omega,
      bytesToCells, List.append_assoc, List.cons_append]
    have hl : ((toBytes (sbits / 8) y).map some).length = sbits / 8 := by simp [toBytes_length]
    rw [List.take_append_of_le_length (by omega), List.take_of_length_le (by omega),
      List.drop_append_of_le_length (by omega), List.drop_of_length_le (by omega), List.nil_append, hy,
      allSome_map, Option.map_some, ofBytes_toBytes_of_lt h8 (hys y (by simp))]

theorem bytesToCells_length (sz n : Nat) (l : List (Option Nat)) : (bytesToCells sz n l).length = n := by
  induction n generalizing l with
  | zero => rfl
  | succ n ih => simp [bytesToCells, ih]

theorem loadLanes_eq (ys : List Nat) : ∀ (pre rest : Cells),
    loadLanes (some (pre ++ (ys.map some ++ rest))) pre.length ys.length = .ok ys := by
  induction ys with
  | nil => intro pre rest; rfl
  | cons y ys ih =>
    intro pre rest
    simp only [List.length_cons, loadLanes, List.map_cons, List.cons_append, cellRead_append, ok_bind]
    have h2 : pre ++ some y :: (List.map some ys ++ rest)
        = (pre ++ [some y]) ++ (List.map some ys ++ rest) := by simp
    rw [h2, show pre.length + 1 = (pre ++ [some y]).length by simp, ih (pre ++ [some y]) rest]
    rfl

theorem moveMask_testBit {sz : Nat} (hsz : 0 < sz) (pat : Nat) (ys : List Nat) (j : Nat) :
    (moveMask sz pat ys).testBit j = decide (ys[j / sz]? = some pat) := by
  induction ys generalizing j with
  | nil => simp [moveMask]
  | cons y ys ih =>
    unfold moveMask
    rw [Nat.add_comm]
    have hlt : (if y = pat then 2 ^ sz - 1 else 0) < 2 ^ sz := by
      have := Nat.two_pow_pos sz
      split <;> omega
    rw [Nat.testBit_two_pow_mul_add _ hlt]
    by_cases hj : j < sz
    · rw [if_pos hj, Nat.div_eq_of_lt hj]
      by_cases hy : y = pat
      · simp [hy, Nat.testBit_two_pow_sub_one, hj]
      · simp [hy]
    · rw [if_neg hj, ih]
      have : j / sz = (j - sz) / sz + 1 := by
        rw [Nat.div_eq_sub_div hsz (by omega)]
      rw [this]; simp

theorem moveMask_eq_zero_iff {sz : Nat} (hsz : 0 < sz) (pat : Nat) (ys : List Nat) :
    moveMask sz pat ys = 0 ↔ pat ∉ ys := by
  constructor
  · intro h hmem
    obtain ⟨i, hi, he⟩ := List.mem_iff_getElem.mp hmem
    have := moveMask_testBit hsz pat ys (i * sz)
    rw [h, Nat.mul_div_cancel _ hsz] at this
    simp [hi, he] at this
  · intro h
    apply Nat.eq_of_testBit_eq
    intro j
    rw [moveMask_testBit hsz]
    simp only [Nat.zero_testBit, decide_eq_false_iff_not]
    intro he
    exact h (List.mem_of_getElem? he)

theorem ctz_moveMask {sz : Nat} (hsz : 0 < sz) {pat : Nat} {ys : List Nat} (hlen : ys.length * sz = 32) (h : pat ∈ ys) :
    ctz32 (moveMask sz pat ys) = ys.idxOf pat * sz := by
  have hi : ys.idxOf pat < ys.length := List.idxOf_lt_length_iff.mpr h
  have key : (List.range 32).find? (fun i => (moveMask sz pat ys).testBit i) = some (ys.idxOf pat * sz) := by
    rw [List.find?_range_eq_some]
    refine ⟨?_, ?_, ?_⟩
    · rw [moveMask_testBit hsz, Nat.mul_div_cancel _ hsz]
      simp [hi]
    · rw [List.mem_range, ← hlen]
      exact Nat.mul_lt_mul_of_pos_right hi hsz
    · intro j hj
      rw [moveMask_testBit hsz]
      have hjd : j / sz < ys.idxOf pat := (Nat.div_lt_iff_lt_mul hsz).mpr hj
      have : ys[j / sz]? ≠ some pat := by
        intro he
        have hlt : j / sz < ys.length := by omega
        rw [List.getElem?_eq_getElem hlt, Option.some.injEq] at he
        have := List.not_of_lt_findIdx hjd (p := (· == pat))
        simp [he] at this
      simp [this]
  unfold ctz32
  rw [key]
  rfl

theorem avxFindLoop_eq {dbg : Bool} {sz reg : Nat} (hsz : 0 < sz) (hreg : reg * sz = 32) (pat : Nat) (n : Nat) :
    ∀ (i : Nat) (ys : List Nat) (pre rest : Cells), ys.length = n * reg → pre.length = i * reg →
    avxFindLoop dbg sz reg (some (pre ++ (ys.map some ++ rest))) pat i n
      = .ok (if pat ∈ ys then some (i * reg + ys.idxOf pat) else none) := by
  induction n with
  | zero =>
    intro i ys pre rest hy hp
    have : ys = [] := List.length_eq_zero_iff.mp (by omega)
    subst this; simp [avxFindLoop]
  | succ n ih =>
    intro i ys pre rest hy hp
    have hyl : reg ≤ ys.length := by rw [hy, Nat.succ_mul]; omega
    let a := ys.take reg
    let c := ys.drop reg
    have hac : ys = a ++ c := (List.take_append_drop reg ys).symm
    have ha : a.length = reg := by simp [a]; omega
    have hc : c.length = n * reg := by simp [c, hy, Nat.succ_mul]
    unfold avxFindLoop
    have e1 : pre ++ (ys.map some ++ rest) = pre ++ (a.map some ++ (c.map some ++ rest)) := by
      rw [hac]; simp
    have hl : loadLanes (some (pre ++ (ys.map some ++ rest))) (i * reg) reg = .ok a := by
      have := loadLanes_eq a pre (c.map some ++ rest)
      rw [e1, ← hp]; rw [ha] at this; exact this
    rw [hl]
    simp only [ok_bind]
    by_cases hm : pat ∈ a
    · rw [if_neg (by rw [moveMask_eq_zero_iff hsz]; simpa using hm)]
      have hidx : ys.idxOf pat = a.idxOf pat := by rw [hac, idxOf_append_mem hm]
      have hmem : pat ∈ ys := by rw [hac]; exact List.mem_append_left _ hm
      by_cases hall : moveMask sz pat a = 2 ^ 32 - 1
      · rw [if_pos hall]
        have := moveMask_testBit hsz pat a 0
        rw [hall] at this
        simp only [Nat.zero_div] at this
        have h0 : a[0]? = some pat := by
          have hb : (2 ^ 32 - 1 : Nat).testBit 0 = true := by decide
          rw [hb] at this; simpa using this.symm
        have : a.idxOf pat = 0 := by
          cases hA : a with
          | nil => rw [hA] at h0; simp at h0
          | cons z zs => rw [hA] at h0; simp at h0; simp [h0]
        simp [hmem, hidx, this]
      · rw [if_neg hall, ctz_moveMask hsz (by rw [ha, hreg]) hm, Nat.mul_div_cancel _ hsz, ddcheck_ok rfl]
        simp [hmem, hidx]
    · rw [if_pos ((moveMask_eq_zero_iff hsz pat a).mpr hm)]
      have e2 : pre ++ (a.map some ++ (c.map some ++ rest)) = (pre ++ a.map some) ++ (c.map some ++ rest) := by simp
      rw [e1, e2, ih (i + 1) c (pre ++ a.map some) rest hc (by simp [hp, ha, Nat.succ_mul])]
      by_cases hcm : pat ∈ c
      · have hmem : pat ∈ ys := by rw [hac]; exact List.mem_append_right _ hcm
        have hidx : ys.idxOf pat = reg + c.idxOf pat := by
          conv => lhs; rw [hac]
          rw [idxOf_append_notMem hm, ha]
        simp only [hcm, hmem, if_true, hidx]
        congr 2
        rw [Nat.succ_mul]; omega
      · have hmem : pat ∉ ys := by
          rw [hac]; intro h
          rcases List.mem_append.mp h with h | h
          · exact hm h
          · exact hcm h
        simp [hcm, hmem]

theorem avxFind_eq {dbg : Bool} {sbits : Nat} (hs : sbits = 8 ∨ sbits = 16 ∨ sbits = 32 ∨ sbits = 64) (xs : List Nat)
    (rest : Cells) (key : Nat) (hkey : key < 2 ^ sbits) :
    avxFind dbg sbits (some (xs.map some ++ rest)) key xs.length = .ok (posOf xs key) := by
  have hsz : 0 < sbits / 8 := by rcases hs with h | h | h | h <;> subst h <;> decide
  have hreg : 32 / (sbits / 8) * (sbits / 8) = 32 := by rcases hs with h | h | h | h <;> subst h <;> decide
  have hrp : 0 < 32 / (sbits / 8) := by rcases hs with h | h | h | h <;> subst h <;> decide
  unfold avxFind
  simp only
  generalize sbits / 8 = sz at *
  generalize 32 / sz = reg at *
  rw [Nat.mod_eq_of_lt hkey]
  let m := xs.length / reg * reg
  have hm : m ≤ xs.length := Nat.div_mul_le_self _ _
  let a := xs.take m
  let c := xs.drop m
  have hac : xs = a ++ c := (List.take_append_drop m xs).symm
  have ha : a.length = m := by simp [a]; omega
  have hc : c.length = xs.length - m := by simp [c]
  have h1 : (if xs.length ≥ reg then avxFindLoop dbg sz reg (some (xs.map some ++ rest)) key 0 (xs.length / reg)
      else .ok none : Res (Option Nat)) = .ok (if key ∈ a then some (a.idxOf key) else none) := by
    have e : xs.map some ++ rest = [] ++ (a.map some ++ (c.map some ++ rest)) := by rw [hac]; simp
    by_cases hge : xs.length ≥ reg
    · rw [if_pos hge, e, avxFindLoop_eq hsz hreg key _ 0 a [] (c.map some ++ rest) ha (by simp)]
      simp
    · rw [if_neg hge]
      have : m = 0 := by simp only [m, Nat.div_eq_of_lt (Nat.not_le.mp hge), Nat.zero_mul]
      have : a = [] := List.length_eq_zero_iff.mp (by omega)
      simp [this]
  rw [h1]
  simp only [ok_bind]
  by_cases hka : key ∈ a
  · have hmem : key ∈ xs := by rw [hac]; exact List.mem_append_left _ hka
    have hidx : xs.idxOf key = a.idxOf key := by
      conv => lhs; rw [hac]
      rw [idxOf_append_mem hka]
    simp [hka, posOf, hmem, hidx]
  · simp only [hka, if_false]
    have e : xs.map some ++ rest = a.map some ++ (c.map some ++ rest) := by
      conv => lhs; rw [hac]
      simp
    have := scanFrom_eq key c (a.map some) rest
    rw [← e] at this
    rw [List.length_map, ha, hc] at this
    rw [this]
    unfold posOf
    by_cases hkc : key ∈ c
    · have hmem : key ∈ xs := by rw [hac]; exact List.mem_append_right _ hkc
      have hidx : xs.idxOf key = m + c.idxOf key := by
        conv => lhs; rw [hac]
        rw [idxOf_append_notMem hka, ha]
      simp [hkc, hmem, hidx]
    · have hmem : key ∉ xs := by
        rw [hac]; intro h
        rcases List.mem_append.mp h with h | h
        · exact hka h
        · exact hkc h
      simp [hkc, hmem]

theorem lawful_avx {sbits : Nat} {dbg : Bool} (hs : sbits = 8 ∨ sbits = 16 ∨ sbits = 32 ∨ sbits = 64) :
    LawfulBucket (avxOps sbits dbg) (fun _ x => x % 2 ^ sbits) (PlainRep sbits) :=
  have h8 : 8 ∣ sbits := by rcases hs with h | h | h | h <;> subst h <;> decide
  { lawful_plain h8 with
    resize := by
      intro b w cap xs new _ _ ⟨rest, hb, hlen, hlt⟩ hnew _
      subst hb
      simp only [avxOps, avxResize]
      rw [cellsToBytes_append, alignedRealloc_eq _ (by simp [cellsToBytes_length]) (Nat.mul_le_mul_left _ hnew),
        List.take_append_of_le_length (by simp [cellsToBytes_length]),
        List.take_of_length_le (by simp [cellsToBytes_length])]
      simp only [ok_bind, pure_eq_ok]
      have := bytesToCells_cells h8 xs hlt (new - xs.length) (List.replicate (sbits / 8 * new - sbits / 8 * xs.length) none)
      rw [show xs.length + (new - xs.length) = new by omega] at this
      rw [this]
      exact ⟨_, rfl, _, rfl, by rw [bytesToCells_length]; omega, hlt⟩
}

theorem lawful_avx_find {sbits : Nat} {dbg : Bool} (hs : sbits = 8 ∨ sbits = 16 ∨ sbits = 32 ∨ sbits = 64) :
    LawfulFind (avxOps sbits dbg) (fun _ x => x % 2 ^ sbits) (PlainRep sbits) where
  find := by
    intro b w cap xs x _ _ ⟨rest, hb, hlen, hlt⟩ hx
    subst hb
    exact avxFind_eq hs xs rest x (by rw [← hx]; exact Nat.mod_lt _ (Nat.two_pow_pos _))
  find_empty := by
    intro b w x
    simp only [avxOps, avxFind]
    rcases hs with h | h | h | h <;> subst h <;> simp [scanFrom]

/-! ## null_value_bucket -/

/-- The null bucket "stores" the value `true` for every entry. -/
def NullRep (_ : Unit) (_w cap : Nat) (xs : List Nat) : Prop := (∀ x ∈ xs, x = 1) ∧ xs.length ≤ cap

theorem lawful_null : LawfulBucket nullOps (fun _ _ => 1) NullRep where
  init := fun len _ _ _ _ _ => ⟨(), rfl, by simp, by simp⟩
  resize := fun _ _ _ _ _ _ _ h hn _ => ⟨(), rfl, h.1, hn⟩
  write_new := fun _ _ _ xs _ _ _ h hc _ => ⟨(), rfl, by
    intro y hy
    rcases List.mem_append.mp hy with h' | h'
    · exact h.1 y h'
    · exact List.mem_singleton.mp h', by simp; omega⟩
  write_old := fun _ _ _ xs _ i _ _ h hi _ => ⟨(), rfl, by
    intro y hy
    rcases List.mem_or_eq_of_mem_set hy with h' | h'
    · exact h.1 y h'
    · exact h', by simpa using h.2⟩
  read := fun _ _ _ xs i _ _ h hi => by
    simp [nullOps, h.1 xs[i] (List.getElem_mem hi)]
  erase := fun _ _ _ xs p _ _ h hp _ => ⟨(), rfl, fun x hx => h.1 x (List.mem_of_mem_eraseIdx hx), by
    rw [List.length_eraseIdx_of_lt hp]; have := h.2; omega⟩
  cap_ge := fun _ _ _ _ h => h.2
  serialize := fun _ _ _ xs _ _ _ h _ => ⟨[], (), rfl, rfl, h.1, Nat.le_refl _⟩

end SC
