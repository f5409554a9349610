import Verif.Compact.Debug
/-! # The storage of `compact_chaining_map` in a debug build is lawful -/
namespace SC

/-- what the assertions need -/
structure CmpDbgOK (c : CmpDbgCfg) (kw : Nat) (lo hi : Nat) : Prop where
  stor : c.v.good
  bytes : 8 ∣ c.kbits
  kw_le : kw ≤ c.kbits
  inv : ∀ tb, lo ≤ tb → tb ≤ hi → HashInv (c.hash kw) kw tb ∧ c.remOK kw tb = true

/-- dimensions that occur -/
def CmpDbgDim (c : CmpDbgCfg) (kw lo hi : Nat) (d : Dim) : Prop :=
  d.qw = (c.hash kw).remainderWidth d.tb ∧ d.kw = kw ∧ lo ≤ d.tb ∧ d.tb ≤ hi

/-- the storage `m` of a bucket with room for all its entries, and the array `L` -/
structure CmpRaw (c : CmpDbgCfg) (d : Dim) (x : CmpDbgBucket) (m : Buf) (L : Cells) : Prop where
  stor : x.base.stor = some m
  alloc : m.alloc = varBits c.v.sb x.base.size (d.qw + d.vw)
  bits : x.bits = varBits c.v.sb x.base.size (d.qw + d.vw)
  large : x.large = some L

variable {c : CmpDbgCfg} {d : Dim} {x : CmpDbgBucket} {m : Buf} {L : Cells} {kw lo hi : Nat}

theorem VarCfg.good.sb_lt {v : VarCfg} (h : v.good) : v.sb < 255 := by
  rcases h.1 with h | h | h | h <;> omega

theorem varBits_zero {v : VarCfg} (h : v.good) {w : Nat} : varBits v.sb 0 w = 0 := by
  have := h.pos
  simp only [varBits, ceilDiv, Nat.zero_mul, Nat.zero_add, Nat.div_eq_of_lt (show v.sb - 1 < v.sb by omega), Nat.mul_zero]

theorem cmpRoom_ok (hc : c.v.good) (hq : 1 ≤ d.qw) {i : Nat} (hi : i < x.base.size) : cmpRoom c x d i = .ok () := by
  unfold cmpRoom
  apply ddcheck_ok
  have h1 := ceilDiv_mul_ge (x.base.size * d.qw) hc.pos
  have h2 : i * d.qw + d.qw ≤ x.base.size * d.qw := idx_end hi
  have h3 := Nat.div_add_mod (i * d.qw) c.v.sb
  have h4 : i * d.qw / c.v.sb ≤ c.v.sb * (i * d.qw / c.v.sb) := Nat.le_mul_of_pos_left _ hc.pos
  generalize i * d.qw / c.v.sb = a at *
  generalize c.v.sb * a = a' at *
  generalize i * d.qw % c.v.sb = b at *
  omega

theorem CmpRaw.quotientAt (h : CmpRaw c d x m L) (hc : c.v.good) (hq : 1 ≤ d.qw) (hk : d.qw ≤ c.kbits) {i : Nat}
    (hi : i < x.base.size) (hL : L[i]? = some (some (readBits m.bits (i * d.qw) d.qw))) :
    x.quotientAt c d i = .ok (readBits m.bits (i * d.qw) d.qw) := by
  have hv := varBits_ge x.base.size (d.qw + d.vw) hc.pos
  obtain ⟨r1, r2, r3⟩ := entry_room (qw := d.qw) (vw := d.vw) hi
  have hb : x.base.quotientAt c.v d i = .ok (readBits m.bits (i * d.qw) d.qw) := by
    unfold CmpBucket.quotientAt
    rw [h.stor, cmpRead_eq hc (by rw [h.alloc]; exact Nat.dvd_mul_right _ _) hq (by rw [h.alloc]; omega)]
  have hm : readBits m.bits (i * d.qw) d.qw % 2 ^ c.kbits = readBits m.bits (i * d.qw) d.qw :=
    Nat.mod_eq_of_lt (Nat.lt_of_lt_of_le (readBits_lt _ _ _) (Nat.pow_le_pow_right (by omega) hk))
  have hl : cellRead x.large i = .ok (readBits m.bits (i * d.qw) d.qw) := by rw [h.large]; exact cellRead_get hL
  unfold CmpDbgBucket.quotientAt
  simp only [cmpRoom_ok hc hq hi, ddcheck_ok (show i * d.qw + d.qw ≤ x.bits by rw [h.bits]; omega), hb, hm, hl, ok_bind, ddcheck_ok,
    pure_eq_ok]

theorem CmpRaw.valueAt (h : CmpRaw c d x m L) (hc : c.v.good) (hw : 1 ≤ d.vw) (hr : c.remOK d.kw d.tb = true) {i : Nat}
    (hi : i < x.base.size) (hL : L[x.base.size + i]? = some (some (readBits m.bits (x.base.size * d.qw + i * d.vw) d.vw)))
    (hV : cellRead x.vals i = .ok (readBits m.bits (x.base.size * d.qw + i * d.vw) d.vw)) :
    x.valueAt c d i = .ok (readBits m.bits (x.base.size * d.qw + i * d.vw) d.vw) := by
  have hv := varBits_ge x.base.size (d.qw + d.vw) hc.pos
  obtain ⟨r1, r2, r3⟩ := entry_room (qw := d.qw) (vw := d.vw) hi
  have hb : x.base.valueAt c.v d i = .ok (readBits m.bits (x.base.size * d.qw + i * d.vw) d.vw) := by
    unfold CmpBucket.valueAt
    rw [h.stor, cmpRead_eq hc (by rw [h.alloc]; exact Nat.dvd_mul_right _ _) hw (by rw [h.alloc]; omega)]
  have hl : cellRead x.large (x.base.size + i) = .ok (readBits m.bits (x.base.size * d.qw + i * d.vw) d.vw) := by
    rw [h.large]; exact cellRead_get hL
  unfold CmpDbgBucket.valueAt
  simp only [ddcheck_ok hr, ddcheck_ok (show x.base.size * d.qw + i * d.vw + d.vw ≤ x.bits by rw [h.bits]; omega), hb, hl, hV, ok_bind,
    ddcheck_ok, pure_eq_ok]

/-- the stored value differs from that of `m_large_storage` -/
theorem CmpRaw.valueAt_bad (h : CmpRaw c d x m L) (hc : c.v.good) (hw : 1 ≤ d.vw) (hr : c.remOK d.kw d.tb = true) {i v : Nat}
    (hi : i < x.base.size) (hL : L[x.base.size + i]? = some (some v))
    (hne : readBits m.bits (x.base.size * d.qw + i * d.vw) d.vw ≠ v) : x.valueAt c d i = .error .exc := by
  have hv := varBits_ge x.base.size (d.qw + d.vw) hc.pos
  obtain ⟨r1, r2, r3⟩ := entry_room (qw := d.qw) (vw := d.vw) hi
  have hb : x.base.valueAt c.v d i = .ok (readBits m.bits (x.base.size * d.qw + i * d.vw) d.vw) := by
    unfold CmpBucket.valueAt
    rw [h.stor, cmpRead_eq hc (by rw [h.alloc]; exact Nat.dvd_mul_right _ _) hw (by rw [h.alloc]; omega)]
  have hl : cellRead x.large (x.base.size + i) = .ok v := by
    rw [h.large]; exact cellRead_get hL
  unfold CmpDbgBucket.valueAt
  simp only [ddcheck_ok hr, ddcheck_ok (show x.base.size * d.qw + i * d.vw + d.vw ≤ x.bits by rw [h.bits]; omega), hb, hl, ok_bind,
    ddcheck_fails hne, error_bind]

theorem CmpRaw.writeQuotient (h : CmpRaw c d x m L) (hc : c.v.good) (hq : 1 ≤ d.qw) {i q : Nat}
    (hi : i < x.base.size) (hL : i < L.length) (hlt : q < 2 ^ d.qw) :
    x.writeQuotient c d i q = .ok { x with
      base := { x.base with stor := some { m with bits := writeBits m.bits (i * d.qw) d.qw q } },
      large := some (L.set i (some q)) } := by
  have hv := varBits_ge x.base.size (d.qw + d.vw) hc.pos
  obtain ⟨r1, r2, r3⟩ := entry_room (qw := d.qw) (vw := d.vw) hi
  have hd : c.v.sb ∣ m.alloc := by rw [h.alloc]; exact Nat.dvd_mul_right _ _
  have hb : x.base.writeQuotient c.v d i q =
      .ok { x.base with stor := some { m with bits := writeBits m.bits (i * d.qw) d.qw q } } := by
    unfold CmpBucket.writeQuotient
    rw [h.stor, cmpWrite_eq hc hd hq (by rw [h.alloc]; omega)]
    rfl
  have hr : CmpBucket.quotientAt c.v { x.base with stor := some { m with bits := writeBits m.bits (i * d.qw) d.qw q } } d i = .ok q := by
    unfold CmpBucket.quotientAt
    simp only
    rw [cmpRead_eq hc (by exact hd) hq (by show _ ≤ m.alloc; rw [h.alloc]; omega), readBits_write_same, Nat.mod_eq_of_lt hlt]
  have hl : cellRead (some (L.set i (some q))) i = .ok q := cellRead_get (by rw [List.getElem?_set, if_pos rfl, if_pos hL])
  unfold CmpDbgBucket.writeQuotient
  simp only [h.large, cellWrite_lt hL, hl, cmpRoom_ok hc hq hi, ddcheck_ok (msb_le_of_lt hlt),
    ddcheck_ok (show i * d.qw + d.qw ≤ x.bits by rw [h.bits]; omega), ddcheck_ok hc.sb_lt, hb, hr, ok_bind, ddcheck_ok, pure_eq_ok]

theorem CmpRaw.writeValue (h : CmpRaw c d x m L) (hc : c.v.good) (hw : 1 ≤ d.vw) (hr : c.remOK d.kw d.tb = true) {i v : Nat}
    {pv : PlainB} (hi : i < x.base.size) (hL : x.base.size + i < L.length) (hV : cellWrite x.vals i v = .ok pv) :
    x.writeValue c d i v = .ok { x with
      base := { x.base with stor := some { m with bits := writeBits m.bits (x.base.size * d.qw + i * d.vw) d.vw v } },
      large := some (L.set (x.base.size + i) (some v)), vals := pv } := by
  have hv := varBits_ge x.base.size (d.qw + d.vw) hc.pos
  obtain ⟨r1, r2, r3⟩ := entry_room (qw := d.qw) (vw := d.vw) hi
  have hd : c.v.sb ∣ m.alloc := by rw [h.alloc]; exact Nat.dvd_mul_right _ _
  have hb : x.base.writeValue c.v d i v =
      .ok { x.base with stor := some { m with bits := writeBits m.bits (x.base.size * d.qw + i * d.vw) d.vw v } } := by
    unfold CmpBucket.writeValue
    rw [h.stor, cmpWrite_eq hc hd hw (by rw [h.alloc]; omega)]
    rfl
  have hl : cellRead (some (L.set (x.base.size + i) (some v))) (x.base.size + i) = .ok v :=
    cellRead_get (by rw [List.getElem?_set, if_pos rfl, if_pos hL])
  unfold CmpDbgBucket.writeValue
  simp only [h.large, cellWrite_lt hL, hl, ddcheck_ok hr,
    ddcheck_ok (show x.base.size * d.qw + i * d.vw + d.vw ≤ x.bits by rw [h.bits]; omega), ddcheck_ok hc.sb_lt, hb, hV, ok_bind,
    ddcheck_ok, pure_eq_ok]

/-! ## The representation of a bucket -/

/-- `m_plainvalues[b]` -/
def PlainVals (pl : PlainB) (xs : List (Nat × Nat)) : Prop := xs ≠ [] → ∃ cap, PlainRep 64 pl 64 cap (xs.map Prod.snd)

theorem PlainVals.read {pl : PlainB} {xs : List (Nat × Nat)} (h : PlainVals pl xs) {i : Nat} (hi : i < xs.length) :
    cellRead pl i = .ok xs[i].2 := by
  obtain ⟨cap, hr⟩ := h (List.ne_nil_of_length_pos (by omega))
  have := (lawful_plain (sbits := 64) (by decide)).read pl 64 cap _ i (by omega) (by omega) hr (by simpa using hi)
  simpa [plainOps] using this

/-- the bucket and its copies hold the pairs `xs` -/
structure CmpDbgBRep (c : CmpDbgCfg) (kw : Nat) (d : Dim) (b : Nat) (x : CmpDbgBucket) (xs : List (Nat × Nat)) : Prop where
  base : CmpBRep c.v d.qw d.vw x.base xs
  quot : ∀ e ∈ xs, e.1 < 2 ^ d.qw
  keys : PlainKeys (c.hash kw) c.kbits kw d.tb b x.keys xs
  vals : PlainVals x.vals xs
  large : xs ≠ [] → ∃ L : Cells, x.large = some L ∧ L.length = 2 * xs.length ∧
    ∀ i (h : i < xs.length), L[i]? = some (some xs[i].1) ∧ L[xs.length + i]? = some (some xs[i].2)
  bits : x.bits = varBits c.v.sb xs.length (d.qw + d.vw)
  empty : xs = [] → x.keys = none ∧ x.vals = none ∧ x.large = none

variable {xs : List (Nat × Nat)} {b : Nat}

theorem CmpDbgBRep.raw (h : CmpDbgBRep c kw d b x xs) (hne : xs ≠ []) :
    ∃ m L, CmpRaw c d x m L ∧ L.length = 2 * xs.length ∧ (∀ i (h : i < xs.length),
      readBits m.bits (i * d.qw) d.qw = xs[i].1 ∧ readBits m.bits (xs.length * d.qw + i * d.vw) d.vw = xs[i].2 ∧
      L[i]? = some (some xs[i].1) ∧ L[xs.length + i]? = some (some xs[i].2)) := by
  obtain ⟨m, h1, h2, h3⟩ := h.base.stor hne
  obtain ⟨L, l1, l2, l3⟩ := h.large hne
  have hs := h.base.size
  refine ⟨m, L, ⟨h1, by rw [hs]; exact h2, by rw [hs]; exact h.bits, l1⟩, l2, fun i hi => ?_⟩
  exact ⟨(h3 i hi).1, (h3 i hi).2, (l3 i hi).1, (l3 i hi).2⟩

theorem CmpDbgBRep.quotientAt (h : CmpDbgBRep c kw d b x xs) (hc : c.v.good) (hq : 1 ≤ d.qw) (hk : d.qw ≤ c.kbits) {i : Nat}
    (hi : i < xs.length) : x.quotientAt c d i = .ok xs[i].1 := by
  obtain ⟨m, L, hr, _, hx⟩ := h.raw (List.ne_nil_of_length_pos (by omega))
  obtain ⟨e1, e2, e3, e4⟩ := hx i hi
  rw [hr.quotientAt hc hq hk (by rw [h.base.size]; exact hi) (by rw [e1]; exact e3), e1]

theorem CmpDbgBRep.valueAt (h : CmpDbgBRep c kw d b x xs) (hc : c.v.good) (hw : 1 ≤ d.vw) (hrem : c.remOK d.kw d.tb = true)
    {i : Nat} (hi : i < xs.length) : x.valueAt c d i = .ok xs[i].2 := by
  obtain ⟨m, L, hr, _, hx⟩ := h.raw (List.ne_nil_of_length_pos (by omega))
  obtain ⟨e1, e2, e3, e4⟩ := hx i hi
  have hs := h.base.size
  rw [hr.valueAt hc hw hrem (by rw [hs]; exact hi) (by rw [hs, e2]; exact e4) (by rw [hs, e2]; exact h.vals.read hi), hs, e2]

theorem CmpDbgBRep.verify (h : CmpDbgBRep c kw d b x xs) (hc : c.v.good) (hq : 1 ≤ d.qw) (hk : d.qw ≤ c.kbits) (hw : 1 ≤ d.vw)
    (hrem : c.remOK d.kw d.tb = true) (hkw : d.kw = kw) :
    ∀ (n i : Nat), i + n = xs.length → CmpDbgBucket.verify c x d b i n = .ok () := by
  intro n
  induction n with
  | zero => intro i _; rfl
  | succ n ih =>
    intro i hi
    have hi' : i < xs.length := by omega
    obtain ⟨k, e1, e2, e3⟩ := h.keys.read hi'
    simp only [CmpDbgBucket.verify, h.quotientAt hc hq hk hi', hkw, e1, e3, e2, h.valueAt hc hw hrem hi', h.vals.read hi', ok_bind,
      ddcheck_ok, ih (i + 1) (by omega)]

theorem CmpDbgBRep.scan (h : CmpDbgBRep c kw d b x xs) (hc : c.v.good) (hq : 1 ≤ d.qw) (hk : d.qw ≤ c.kbits) (hkw : d.kw = kw)
    (q : Nat) : ∀ (n i : Nat), i + n = xs.length → CmpDbgBucket.scan c x d b q i n =
      .ok (if q ∈ (xs.drop i).map Prod.fst then i + ((xs.drop i).map Prod.fst).idxOf q else NPOS) := by
  intro n
  induction n with
  | zero =>
    intro i hi
    have : xs.drop i = [] := List.drop_eq_nil_of_le (by omega)
    simp [CmpDbgBucket.scan, this]
  | succ n ih =>
    intro i hi
    have hi' : i < xs.length := by omega
    obtain ⟨k, e1, e2, e3⟩ := h.keys.read hi'
    have hd : xs.drop i = xs[i] :: xs.drop (i + 1) := List.drop_eq_getElem_cons hi'
    simp only [CmpDbgBucket.scan, h.quotientAt hc hq hk hi', hkw, e1, e3, e2, ok_bind, ddcheck_ok]
    by_cases hx : xs[i].1 = q
    · rw [if_pos hx, if_pos (by rw [hd, List.map_cons, hx]; exact List.mem_cons_self), hd, List.map_cons, hx, List.idxOf_cons_self]
      rfl
    · rw [if_neg hx, ih (i + 1) (by omega), hd]
      simp only [List.map_cons, List.mem_cons]
      have hx' : ¬ q = xs[i].1 := fun e => hx e.symm
      by_cases hm : q ∈ (xs.drop (i + 1)).map Prod.fst
      · rw [if_pos hm, if_pos (.inr hm), List.idxOf_cons, beq_false_of_ne hx, cond_false]
        congr 1; omega
      · rw [if_neg hm, if_neg (fun e => e.elim hx' hm)]

theorem CmpDbgBRep.writeValue (h : CmpDbgBRep c kw d b x xs) (hc : c.v.good) (hw : 1 ≤ d.vw) (hvw : d.vw ≤ 64)
    (hrem : c.remOK d.kw d.tb = true) {i v : Nat} (hi : i < xs.length) (hv : v < 2 ^ d.vw) :
    ∃ y, x.writeValue c d i v = .ok y ∧ CmpDbgBRep c kw d b y (xs.set i (xs[i].1, v)) := by
  have hne : xs ≠ [] := List.ne_nil_of_length_pos (by omega)
  obtain ⟨m, L, hr, hlen, hx⟩ := h.raw hne
  have hs := h.base.size
  have h64 : v < 2 ^ 64 := Nat.lt_of_lt_of_le hv (Nat.pow_le_pow_right (by omega) hvw)
  obtain ⟨cap, hV⟩ := h.vals hne
  obtain ⟨pv, p1, p2⟩ := (lawful_plain (sbits := 64) (by decide)).write_old x.vals 64 cap _ v i (by omega) (by omega) hV
    (by simpa using hi) trivial
  have p1 : cellWrite x.vals i (v % 2 ^ 64) = .ok pv := p1
  rw [Nat.mod_eq_of_lt h64] at p1
  have hw1 := hr.writeValue hc hw hrem (by rw [hs]; exact hi) (show x.base.size + i < L.length by omega) p1
  obtain ⟨y, y1, y2⟩ := cmp_writeValue hc hw h.base hi v
  rw [Nat.mod_eq_of_lt hv] at y2
  refine ⟨_, hw1, ?_⟩
  have hy : y = { x.base with stor := some { m with bits := writeBits m.bits (x.base.size * d.qw + i * d.vw) d.vw v } } := by
    have hd : c.v.sb ∣ m.alloc := by rw [hr.alloc]; exact Nat.dvd_mul_right _ _
    have hv' := varBits_ge x.base.size (d.qw + d.vw) hc.pos
    obtain ⟨r1, r2, r3⟩ := entry_room (qw := d.qw) (vw := d.vw) (show i < x.base.size by omega)
    unfold CmpBucket.writeValue at y1
    rw [hr.stor, cmpWrite_eq hc hd hw (by rw [hr.alloc]; omega)] at y1
    cases y1; rfl
  refine ⟨by rw [← hy]; exact y2, ?_, h.keys.set hi, ?_, ?_, by rw [List.length_set]; exact h.bits, ?_⟩
  · intro e he
    obtain he | rfl := List.mem_or_eq_of_mem_set he
    · exact h.quot e he
    · exact h.quot xs[i] (List.getElem_mem hi)
  · intro _
    refine ⟨cap, ?_⟩
    rw [List.map_set]
    simpa [Nat.mod_eq_of_lt h64] using p2
  · intro _
    refine ⟨_, rfl, by simp [hlen], ?_⟩
    intro j hj
    rw [List.length_set] at hj ⊢
    obtain ⟨e1, e2, e3, e4⟩ := hx j hj
    rw [List.getElem?_set, if_neg (by omega), List.getElem?_set, List.getElem_set, hs]
    by_cases hij : i = j
    · subst hij
      rw [if_pos rfl, if_pos (by omega), if_pos (by omega)]
      exact ⟨e3, rfl⟩
    · rw [if_neg hij, if_neg (by omega)]; exact ⟨e3, e4⟩
  · intro he
    exact absurd (by simpa using he) hne

theorem writeBits_mod (m : Bits) (pos len x : Nat) : writeBits m pos len (x % 2 ^ len) = writeBits m pos len x := by
  funext i
  unfold writeBits
  split
  · rw [Nat.testBit_mod_two_pow, decide_eq_true (by omega), Bool.true_and]
  · rfl

/-- Overwriting a value by one with more than `value_width()` bits is not noticed; the bucket can still be searched, but the
value can no longer be read. -/
theorem CmpDbgBRep.writeValue_wide (h : CmpDbgBRep c kw d b x xs) (hc : c.v.good) (hq : 1 ≤ d.qw) (hk : d.qw ≤ c.kbits) (hw : 1 ≤ d.vw)
    (hvw : d.vw ≤ 64) (hrem : c.remOK d.kw d.tb = true) {i v : Nat} (hi : i < xs.length) (hv : 2 ^ d.vw ≤ v)
    (h64 : v < 2 ^ 64) :
    ∃ y, x.writeValue c d i v = .ok y ∧ y.base.size = xs.length ∧ y.valueAt c d i = .error .exc ∧
      ∀ q, CmpDbgBucket.scan c y d b q 0 xs.length = CmpDbgBucket.scan c x d b q 0 xs.length := by
  have hne : xs ≠ [] := List.ne_nil_of_length_pos (by omega)
  obtain ⟨m, L, hr, hlen, hx⟩ := h.raw hne
  have hs := h.base.size
  obtain ⟨cap, hV⟩ := h.vals hne
  obtain ⟨pv, p1, p2⟩ := (lawful_plain (sbits := 64) (by decide)).write_old x.vals 64 cap _ v i (by omega) (by omega) hV
    (by simpa using hi) trivial
  have p1 : cellWrite x.vals i (v % 2 ^ 64) = .ok pv := p1
  rw [Nat.mod_eq_of_lt h64] at p1
  have hw1 := hr.writeValue hc hw hrem (by rw [hs]; exact hi) (show x.base.size + i < L.length by omega) p1
  have hlt : v % 2 ^ d.vw < 2 ^ d.vw := Nat.mod_lt _ (Nat.two_pow_pos _)
  obtain ⟨pv', p1', _⟩ := (lawful_plain (sbits := 64) (by decide)).write_old x.vals 64 cap _ (v % 2 ^ d.vw) i (by omega) (by omega) hV
    (by simpa using hi) trivial
  have p1' : cellWrite x.vals i ((v % 2 ^ d.vw) % 2 ^ 64) = .ok pv' := p1'
  rw [Nat.mod_eq_of_lt (show v % 2 ^ d.vw < 2 ^ 64 by omega)] at p1'
  have hw2 := hr.writeValue hc hw hrem (by rw [hs]; exact hi) (show x.base.size + i < L.length by omega) p1'
  obtain ⟨y', y1, y2⟩ := h.writeValue hc hw hvw hrem hi hlt
  rw [hw2] at y1
  cases y1
  refine ⟨_, hw1, hs, ?_, ?_⟩
  · refine CmpRaw.valueAt_bad (x := ⟨⟨some ⟨m.alloc, writeBits m.bits (x.base.size * d.qw + i * d.vw) d.vw v⟩, x.base.size⟩,
        x.keys, pv, some (L.set (x.base.size + i) (some v)), x.bits⟩) (m := { m with bits := writeBits m.bits (x.base.size * d.qw + i * d.vw) d.vw v })
      (L := L.set (x.base.size + i) (some v)) ⟨rfl, hr.alloc, hr.bits, rfl⟩ hc hw hrem (v := v) (by show i < x.base.size; omega) ?_ ?_
    · show (L.set (x.base.size + i) (some v))[x.base.size + i]? = _
      rw [List.getElem?_set, if_pos rfl, if_pos (by omega)]
    · show readBits (writeBits m.bits (x.base.size * d.qw + i * d.vw) d.vw v) (x.base.size * d.qw + i * d.vw) d.vw ≠ v
      rw [readBits_write_same]; omega
  · intro q
    have hQ : ∀ j < xs.length, CmpDbgBucket.quotientAt c ⟨⟨some ⟨m.alloc, writeBits m.bits (x.base.size * d.qw + i * d.vw) d.vw v⟩, x.base.size⟩,
        x.keys, pv, some (L.set (x.base.size + i) (some v)), x.bits⟩ d j = x.quotientAt c d j := by
      intro j hj
      have hj' : j < (xs.set i (xs[i].1, v % 2 ^ d.vw)).length := by simpa using hj
      rw [h.quotientAt hc hq hk hj]
      have e := y2.quotientAt hc hq hk hj'
      rw [show (xs.set i (xs[i].1, v % 2 ^ d.vw))[j].1 = xs[j].1 by
        rw [List.getElem_set]; split
        · rename_i he; subst he; rfl
        · rfl] at e
      rw [← e]
      unfold CmpDbgBucket.quotientAt
      simp only [writeBits_mod]
      rw [show cellRead (some (L.set (x.base.size + i) (some v))) j = cellRead (some (L.set (x.base.size + i) (some (v % 2 ^ d.vw)))) j by
        simp only [cellRead, List.getElem?_set, if_neg (show ¬ x.base.size + i = j by omega)]]
      rfl
    have hS : ∀ n j, j + n = xs.length → CmpDbgBucket.scan c ⟨⟨some ⟨m.alloc, writeBits m.bits (x.base.size * d.qw + i * d.vw) d.vw v⟩,
        x.base.size⟩, x.keys, pv, some (L.set (x.base.size + i) (some v)), x.bits⟩ d b q j n = CmpDbgBucket.scan c x d b q j n := by
      intro n
      induction n with
      | zero => intro j _; rfl
      | succ n ih =>
        intro j hj
        simp only [CmpDbgBucket.scan, hQ j (by omega), ih (j + 1) (by omega)]
    exact hS xs.length 0 (by omega)

/-! ## Insertion -/

theorem cmpDbgShift_eq (hc : c.v.good) {bits old new : Nat} : ∀ (n : Nat) (st : VarB), new * d.qw + n * d.vw ≤ bits →
    cmpDbgShift c d bits old new n st = cmpShift c.v d.qw d.vw old new n st := by
  intro n
  induction n with
  | zero => intro _ _; rfl
  | succ n ih =>
    intro st h
    rw [Nat.succ_mul] at h
    simp only [cmpDbgShift, cmpShift, ddcheck_ok (show new * d.qw + n * d.vw + d.vw ≤ bits by omega), ddcheck_ok hc.sb_lt, ok_bind]
    congr 1; funext v; congr 1; funext st'
    exact ih st' (by omega)

/-- the two steps of `enlarge_storage` -/
theorem cmp_enlarge {c : VarCfg} {x : CmpBucket} (hc : c.good) (hq : 1 ≤ d.qw) (hw : 1 ≤ d.vw) (h : CmpBRep c d.qw d.vw x xs) :
    ∃ m1 m2, CmpBucket.realloc c { stor := x.stor, size := xs.length + 1 } d xs.length = { stor := some m1, size := xs.length + 1 } ∧
      cmpShift c d.qw d.vw xs.length (xs.length + 1) xs.length (some m1) = .ok (some m2) ∧
      m2.alloc = varBits c.sb (xs.length + 1) (d.qw + d.vw) ∧
      ∀ i (h : i < xs.length), readBits m2.bits (i * d.qw) d.qw = xs[i].1 ∧
        readBits m2.bits ((xs.length + 1) * d.qw + i * d.vw) d.vw = xs[i].2 := by
  obtain ⟨m1, e1, e2, e3⟩ := cmp_realloc (d := d) (n := xs.length + 1) (b := x.stor) hc hq (old := xs.length) (by omega)
    (fun h0 => h.empty (List.eq_nil_of_length_eq_zero h0))
    (fun h0 => by
      obtain ⟨m, g1, g2, _⟩ := h.stor (by rintro rfl; simp at h0)
      exact ⟨m, g1, g2⟩)
  have hv := varBits_ge (xs.length + 1) (d.qw + d.vw) hc.pos
  have hd : c.sb ∣ m1.alloc := by rw [e2]; exact Nat.dvd_mul_right _ _
  have hlen : (xs.length + 1) * (d.qw + d.vw) = xs.length * d.qw + d.qw + (xs.length * d.vw + d.vw) := by
    rw [Nat.mul_add, Nat.succ_mul, Nat.succ_mul]
  have hqs : (xs.length + 1) * d.qw = xs.length * d.qw + d.qw := Nat.succ_mul _ _
  refine ⟨m1, _, e1, cmpShift_eq hc hw (by omega) _ _ hd (by omega), e2, ?_⟩
  intro i hi
  obtain ⟨m, g1, g2, g3⟩ := h.stor (List.ne_nil_of_length_pos (by omega))
  obtain ⟨r1, r2, r3⟩ := entry_room (qw := d.qw) (vw := d.vw) hi
  rw [← (g3 i hi).1, ← (g3 i hi).2]
  constructor
  · apply readBits_congr
    intro j hj
    simp only [copyBits]
    rw [if_neg (by omega), e3 m g1 _ (by omega) (by omega)]
  · apply readBits_congr
    intro j hj
    simp only [copyBits]
    rw [if_pos (by omega), e3 m g1 _ (by omega) (by omega)]
    congr 1; omega

theorem PlainVals.push {pl : PlainB} {q v : Nat} (h : PlainVals pl xs) (h0 : xs = [] → pl = none) (hv : v < 2 ^ 64) :
    ∃ p1 p2 p3, plainResize pl (xs.length + 1) = .ok p1 ∧ cellWrite p1 xs.length v = .ok p2 ∧ cellWrite p2 xs.length v = .ok p3 ∧
      PlainVals p3 (xs ++ [(q, v)]) := by
  have P := lawful_plain (sbits := 64) (by decide)
  have main : ∃ p1, plainResize pl (xs.length + 1) = .ok p1 ∧ PlainRep 64 p1 64 (xs.length + 1) (xs.map Prod.snd) := by
    by_cases hne : xs = []
    · rw [h0 hne, hne]
      obtain ⟨p1, e1, e2⟩ := P.init 1 64 64 (by omega) (by omega) (by omega)
      exact ⟨p1, e1, e2⟩
    · obtain ⟨cap, hr⟩ := h hne
      obtain ⟨p1, e1, e2⟩ := P.resize pl 64 cap _ (xs.length + 1) (by omega) (by omega) hr (by simp) (by omega)
      exact ⟨p1, e1, e2⟩
  obtain ⟨p1, a1, a2⟩ := main
  obtain ⟨p2, b1, b2⟩ := P.write_new p1 64 _ _ v (by omega) (by omega) a2 (by simp) trivial
  obtain ⟨p3, c1, c2⟩ := P.write_old p2 64 _ _ v xs.length (by omega) (by omega) b2 (by simp) trivial
  simp only [plainOps, Nat.mod_eq_of_lt hv, List.length_map] at b1 c1 b2 c2
  refine ⟨p1, p2, p3, a1, b1, c1, fun _ => ⟨xs.length + 1, ?_⟩⟩
  rw [List.set_append_right _ _ (by simp)] at c2
  simpa using c2

/-- `m_large_storage` after `enlarge_storage` -/
theorem large_enlarge (h : xs ≠ [] → ∃ L : Cells, x.large = some L ∧ L.length = 2 * xs.length ∧
      ∀ i (h : i < xs.length), L[i]? = some (some xs[i].1) ∧ L[xs.length + i]? = some (some xs[i].2))
    (h0 : xs = [] → x.large = none) :
    ∃ p1 L, plainResize x.large (2 * (xs.length + 1)) = .ok p1 ∧ cellUp p1 xs.length xs.length = .ok (some L) ∧
      L.length = 2 * (xs.length + 1) ∧
      ∀ i (h : i < xs.length), L[i]? = some (some xs[i].1) ∧ L[xs.length + 1 + i]? = some (some xs[i].2) := by
  by_cases hne : xs = []
  · rw [h0 hne, hne]
    exact ⟨_, _, rfl, rfl, rfl, fun i hi => absurd hi (by simp)⟩
  · obtain ⟨L, l1, l2, l3⟩ := h hne
    rw [l1]
    have ht : L.take (2 * (xs.length + 1)) = L := List.take_of_length_le (by omega)
    simp only [plainResize, ht]
    generalize hR : (L ++ List.replicate (2 * (xs.length + 1) - List.length L) none : Cells) = R
    have hRl : R.length = 2 * (xs.length + 1) := by
      rw [← hR, List.length_append, List.length_replicate]; omega
    have hRg : ∀ j, j < L.length → R[j]? = L[j]? := by
      intro j hj
      rw [← hR, List.getElem?_append_left hj]
    obtain ⟨L', e1, e2, e3⟩ := cellUp_eq xs.length xs.length R (by omega) (by
      intro j h1 h2
      refine ⟨(xs[j - xs.length]'(by omega)).2, ?_⟩
      have := (l3 (j - xs.length) (by omega)).2
      rw [show xs.length + (j - xs.length) = j by omega] at this
      rw [hRg j (by omega), this])
    refine ⟨_, L', rfl, e1, by rw [e2, hRl], ?_⟩
    intro i hi
    rw [e3, e3, if_neg (by omega), if_pos (by omega), hRg _ (by omega), hRg _ (by omega),
      show xs.length + 1 + i - 1 = xs.length + i by omega]
    exact l3 i hi

theorem reread_ok {vals : PlainB} (hv : PlainVals vals xs) {y : CmpDbgBucket} (hr : CmpRaw c d y m L) (hc : c.v.good) (hq : 1 ≤ d.qw)
    (hk : d.qw ≤ c.kbits) (hw : 1 ≤ d.vw) (hrem : c.remOK d.kw d.tb = true) (hyv : y.vals = vals) (hlt : xs.length ≤ y.base.size)
    (hx : ∀ i (h : i < xs.length), readBits m.bits (i * d.qw) d.qw = xs[i].1 ∧
      readBits m.bits (y.base.size * d.qw + i * d.vw) d.vw = xs[i].2 ∧
      L[i]? = some (some xs[i].1) ∧ L[y.base.size + i]? = some (some xs[i].2)) :
    ∀ (n i : Nat), i + n = xs.length → CmpDbgBucket.reread c y d i n = .ok () := by
  intro n
  induction n with
  | zero => intro i _; rfl
  | succ n ih =>
    intro i hi
    obtain ⟨e1, e2, e3, e4⟩ := hx i (by omega)
    simp only [CmpDbgBucket.reread, hr.quotientAt hc hq hk (show i < y.base.size by omega) (by rw [e1]; exact e3),
      hr.valueAt hc hw hrem (show i < y.base.size by omega) (by rw [e2]; exact e4)
        (by rw [e2, hyv]; exact hv.read (by omega)), ok_bind, ih (i + 1) (by omega)]

/-- the state of the bucket before the comparisons of lines 607-612 -/
theorem CmpDbgBRep.push_core (h : CmpDbgBRep c kw d b x xs) (hO : CmpDbgOK c kw lo hi) (hd : GoodDim 64 d) (hD : CmpDbgDim c kw lo hi d)
    (hb : b < 2 ^ d.tb) (hlt : xs.length < 255) {q v : Nat} (hq : q < 2 ^ d.qw) (h64 : v < 2 ^ 64) :
    ∃ (y : CmpDbgBucket) (L : Cells), x.push c d b q v = (do
        CmpDbgBucket.verify c y d b 0 (xs.length + 1)
        return y) ∧ CmpBRep c.v d.qw d.vw y.base (xs ++ [(q, v % 2 ^ d.vw)]) ∧
      PlainKeys (c.hash kw) c.kbits kw d.tb b y.keys (xs ++ [(q, v)]) ∧ PlainVals y.vals (xs ++ [(q, v)]) ∧
      y.bits = varBits c.v.sb (xs.length + 1) (d.qw + d.vw) ∧ y.large = some L ∧ L.length = 2 * (xs.length + 1) ∧
      ∀ i (h : i < (xs ++ [(q, v)]).length), L[i]? = some (some (xs ++ [(q, v)])[i].1) ∧
        L[(xs ++ [(q, v)]).length + i]? = some (some (xs ++ [(q, v)])[i].2) := by
  obtain ⟨d1, d2, d3, d4⟩ := hD
  have hc := hO.stor
  obtain ⟨hinv, hrem⟩ := hO.inv d.tb d3 d4
  rw [← d2] at hrem
  obtain ⟨k, k1, k2⟩ := hinv.inv q b (by rw [← d1]; exact hq) hb
  have hkb : k < 2 ^ c.kbits := Nat.lt_of_lt_of_le k2 (Nat.pow_le_pow_right (by omega) hO.kw_le)
  have hqp : 1 ≤ d.qw := hd.qw_pos
  have hwp : 1 ≤ d.vw := hd.vw_pos
  have hkw1 : 1 ≤ kw := by have := hd.qw_le; omega
  have hkw2 : kw ≤ 64 := by have := hd.kw_le; omega
  have hqk : d.qw ≤ c.kbits := by have := hd.qw_le; have := hO.kw_le; omega
  have hwidth : dbgWidth c.remOK d = .ok () := by
    simp only [dbgWidth, ddcheck_ok hrem, ddcheck_ok (show 0 < d.qw from hqp), ddcheck_ok hd.qw_le, ok_bind]
  have hs := h.base.size
  have hsz : (xs.length + 1) % 256 = xs.length + 1 := by omega
  obtain ⟨m1, m2, e1, e2, e3, e4⟩ := cmp_enlarge hc hqp hwp h.base
  obtain ⟨p1, L, l1, l2, l3, l4⟩ := large_enlarge h.large (fun h0 => (h.empty h0).2.2)
  obtain ⟨v1, v2, v3, w1, w2, w3, w4⟩ := h.vals.push (q := q) (fun h0 => (h.empty h0).2.1) h64
  have hkeys : ∃ k1' k2', plainResize x.keys (xs.length + 1) = .ok k1' ∧ (plainOps c.kbits).write k1' xs.length k kw = .ok k2' ∧
      PlainKeys (c.hash kw) c.kbits kw d.tb b k2' (xs ++ [(q, v)]) := by
    by_cases hne : xs = []
    · obtain ⟨a1, a2, a3, a4, a5⟩ := PlainKeys.first (v := v) hO.bytes hkw1 hkw2 hkb k1
      refine ⟨a1, a2, ?_, by rw [hne]; exact a4, by rw [hne]; exact a5⟩
      rw [(h.empty hne).1, hne]; exact a3
    · obtain ⟨a1, a2, a3, a4, a5⟩ := h.keys.push (v := v) hO.bytes hkw1 hkw2 hkb k1 hne
      exact ⟨a1, a2, a3, a4, a5⟩
  obtain ⟨ks1, ks2, u1, u2, u3⟩ := hkeys
  have hv' := varBits_ge (xs.length + 1) (d.qw + d.vw) hc.pos
  have hlen : (xs.length + 1) * (d.qw + d.vw) = (xs.length + 1) * d.qw + (xs.length + 1) * d.vw := Nat.mul_add _ _ _
  have hle : xs.length * d.vw ≤ (xs.length + 1) * d.vw := Nat.mul_le_mul_right _ (by omega)
  -- after the enlargement
  let y1 : CmpDbgBucket := ⟨⟨some m2, xs.length + 1⟩, x.keys, x.vals, some L, varBits c.v.sb (xs.length + 1) (d.qw + d.vw)⟩
  have r1 : CmpRaw c d y1 m2 L := ⟨rfl, e3, rfl, rfl⟩
  have hre : CmpDbgBucket.reread c y1 d 0 xs.length = .ok () :=
    reread_ok h.vals r1 hc hqp hqk hwp hrem rfl (by show _ ≤ xs.length + 1; omega)
      (fun i hi => ⟨(e4 i hi).1, (e4 i hi).2, (l4 i hi).1, (l4 i hi).2⟩) _ 0 (by omega)
  have henl : x.enlarge c d = .ok { y1 with keys := ks1, vals := v1 } := by
    unfold CmpDbgBucket.enlarge CmpDbgBucket.realloc
    simp only [hs, hsz, ddcheck_ok hlt, ok_bind, pure_eq_ok, Nat.add_sub_cancel, l1, e1, l2]
    rw [cmpDbgShift_eq hc _ _ (by omega), e2]
    simp only [ok_bind]
    rw [show CmpDbgBucket.reread c _ d 0 xs.length = .ok () from hre]
    simp only [ok_bind, u1, w1]
    rfl
  -- the quotient
  have r2 : CmpRaw c d { y1 with keys := ks1, vals := v1 } m2 L := ⟨rfl, e3, rfl, rfl⟩
  have hwq := r2.writeQuotient hc hqp (i := xs.length) (q := q) (by show _ < xs.length + 1; omega) (by omega) hq
  -- the value
  have r3 : CmpRaw c d ⟨⟨some { m2 with bits := writeBits m2.bits (xs.length * d.qw) d.qw q }, xs.length + 1⟩, ks1, v1,
      some (L.set xs.length (some q)), varBits c.v.sb (xs.length + 1) (d.qw + d.vw)⟩ { m2 with bits := writeBits m2.bits (xs.length * d.qw) d.qw q }
      (L.set xs.length (some q)) := ⟨rfl, e3, rfl, rfl⟩
  have hwv := r3.writeValue hc hwp hrem (i := xs.length) (v := v) (pv := v2) (by show _ < xs.length + 1; omega)
    (by rw [List.length_set]; show xs.length + 1 + xs.length < _; omega) w2
  obtain ⟨z, z1, z2⟩ := cmp_push hc hqp hwp h.base hlt hq v
  have hdv : c.v.sb ∣ m2.alloc := by rw [e3]; exact Nat.dvd_mul_right _ _
  have hqs : (xs.length + 1) * d.qw = xs.length * d.qw + d.qw := Nat.succ_mul _ _
  have hws : (xs.length + 1) * d.vw = xs.length * d.vw + d.vw := Nat.succ_mul _ _
  have hz : z = ⟨some ⟨m2.alloc, writeBits (writeBits m2.bits (xs.length * d.qw) d.qw q)
      ((xs.length + 1) * d.qw + xs.length * d.vw) d.vw v⟩, xs.length + 1⟩ := by
    have hb1 : x.base.enlarge c.v d = .ok ⟨some m2, xs.length + 1⟩ := by
      unfold CmpBucket.enlarge
      simp only [hs, hsz, Nat.add_sub_cancel, e1, e2, ok_bind, pure_eq_ok]
    unfold CmpBucket.push CmpBucket.writeQuotient CmpBucket.writeValue at z1
    rw [hb1] at z1
    simp only [ok_bind, hs] at z1
    rw [cmpWrite_eq hc hdv hqp (by rw [e3]; omega)] at z1
    simp only [ok_bind, pure_eq_ok] at z1
    rw [cmpWrite_eq hc (by exact hdv) hwp (by show _ ≤ m2.alloc; rw [e3]; omega)] at z1
    cases z1; rfl
  -- the result
  let y4 : CmpDbgBucket := ⟨z, ks2, v3, some ((L.set xs.length (some q)).set (xs.length + 1 + xs.length) (some v)),
    varBits c.v.sb (xs.length + 1) (d.qw + d.vw)⟩
  have hL : ∀ i (h : i < (xs ++ [(q, v)]).length), ((L.set xs.length (some q)).set (xs.length + 1 + xs.length) (some v))[i]? =
        some (some (xs ++ [(q, v)])[i].1) ∧ ((L.set xs.length (some q)).set (xs.length + 1 + xs.length) (some v))[(xs ++ [(q, v)]).length + i]? =
        some (some (xs ++ [(q, v)])[i].2) := by
    intro i hi
    simp only [List.length_append, List.length_singleton] at hi ⊢
    simp only [List.getElem?_set, List.length_set]
    by_cases hi' : i < xs.length
    · rw [if_neg (by omega), if_neg (by omega), if_neg (by omega), if_neg (by omega), List.getElem_append_left hi']
      exact l4 i hi'
    · have : i = xs.length := by omega
      subst this
      rw [if_neg (by omega), if_pos rfl, if_pos (by omega), if_pos rfl, if_pos (by omega)]
      simp
  refine ⟨y4, _, ?_, z2, u3, w4, rfl, rfl, by simp [l3], hL⟩
  unfold CmpDbgBucket.push
  simp only [hwidth, d2, k1, henl, hs, ok_bind]
  rw [hwq]
  simp only [ok_bind]
  rw [show CmpDbgBucket.writeValue c _ d xs.length v = _ from hwv]
  simp only [ok_bind, u2, w3]
  have hy4 : y4 = ⟨⟨some ⟨m2.alloc, writeBits (writeBits m2.bits (xs.length * d.qw) d.qw q)
      ((xs.length + 1) * d.qw + xs.length * d.vw) d.vw v⟩, xs.length + 1⟩, ks2, v3,
      some ((L.set xs.length (some q)).set (xs.length + 1 + xs.length) (some v)), varBits c.v.sb (xs.length + 1) (d.qw + d.vw)⟩ := by
    simp only [y4, hz]
  rw [hy4]

theorem CmpDbgBRep.push (h : CmpDbgBRep c kw d b x xs) (hO : CmpDbgOK c kw lo hi) (hd : GoodDim 64 d) (hD : CmpDbgDim c kw lo hi d)
    (hb : b < 2 ^ d.tb) (hlt : xs.length < 255) {q v : Nat} (hq : q < 2 ^ d.qw) (hv : v < 2 ^ d.vw) :
    ∃ y, x.push c d b q v = .ok y ∧ CmpDbgBRep c kw d b y (xs ++ [(q, v)]) := by
  have h64 : v < 2 ^ 64 := Nat.lt_of_lt_of_le hv (Nat.pow_le_pow_right (by omega) hd.vw_le)
  obtain ⟨y, L, a1, a2, a3, a4, a5, a6, a7, a8⟩ := h.push_core hO hd hD hb hlt hq h64
  rw [Nat.mod_eq_of_lt hv] at a2
  have hrem : c.remOK d.kw d.tb = true := by rw [hD.2.1]; exact (hO.inv d.tb hD.2.2.1 hD.2.2.2).2
  have hqk : d.qw ≤ c.kbits := by have := hd.qw_le; have := hO.kw_le; have := hD.2.1; omega
  have hR : CmpDbgBRep c kw d b y (xs ++ [(q, v)]) := by
    refine ⟨a2, ?_, a3, a4, fun _ => ⟨L, a6, by simpa using a7, a8⟩, by simpa using a5, by simp⟩
    intro e he
    rcases List.mem_append.mp he with he | he
    · exact h.quot _ he
    · rw [List.mem_singleton.mp he]; exact hq
  exact ⟨y, by rw [a1, hR.verify hO.stor hd.qw_pos hqk hd.vw_pos hrem hD.2.1 (xs.length + 1) 0 (by simp)]; rfl, hR⟩

/-- A value with more than `value_width()` bits is detected by the comparisons at the end of the insertion. -/
theorem CmpDbgBRep.push_wide (h : CmpDbgBRep c kw d b x xs) (hO : CmpDbgOK c kw lo hi) (hd : GoodDim 64 d) (hD : CmpDbgDim c kw lo hi d)
    (hb : b < 2 ^ d.tb) (hlt : xs.length < 255) {q v : Nat} (hq : q < 2 ^ d.qw) (hv : 2 ^ d.vw ≤ v) (h64 : v < 2 ^ 64) :
    x.push c d b q v = .error .exc := by
  obtain ⟨y, L, a1, a2, a3, a4, a5, a6, a7, a8⟩ := h.push_core hO hd hD hb hlt hq h64
  have hrem : c.remOK d.kw d.tb = true := by rw [hD.2.1]; exact (hO.inv d.tb hD.2.2.1 hD.2.2.2).2
  have hqk : d.qw ≤ c.kbits := by have := hd.qw_le; have := hO.kw_le; have := hD.2.1; omega
  obtain ⟨m, m1, m2, m3⟩ := a2.stor (by simp)
  have hs : y.base.size = xs.length + 1 := by rw [a2.size]; simp
  have hr : CmpRaw c d y m L := ⟨m1, by rw [hs]; simpa using m2, by rw [hs]; exact a5, a6⟩
  have hQ : ∀ i, i < xs.length + 1 → ∃ q', y.quotientAt c d i = .ok q' ∧ ∃ k, (c.hash kw).invMap q' b d.tb = .ok k ∧
      k % 2 ^ c.kbits = k ∧ cellRead y.keys i = .ok k := by
    intro i hi
    obtain ⟨n1, n2⟩ := m3 i (by simpa using hi)
    obtain ⟨n3, n4⟩ := a8 i (by simpa using hi)
    have e : ((xs ++ [(q, v % 2 ^ d.vw)])[i]'(by simpa using hi)).1 = ((xs ++ [(q, v)])[i]'(by simpa using hi)).1 := by
      by_cases hi' : i < xs.length
      · rw [List.getElem_append_left hi', List.getElem_append_left hi']
      · have : i = xs.length := by omega
        subst this
        simp
    exact ⟨_, (hr.quotientAt hO.stor hd.qw_pos hqk (by omega) (by rw [n1, n3, e])).trans (congrArg _ (n1.trans e)),
      a3.read (i := i) (by simpa using hi)⟩
  have hV : ∀ i (hi : i < xs.length), y.valueAt c d i = .ok xs[i].2 ∧ cellRead y.vals i = .ok xs[i].2 := by
    intro i hi
    have hi' : i < (xs ++ [(q, v)]).length := by simp; omega
    obtain ⟨n1, n2⟩ := m3 i (by simp; omega)
    obtain ⟨n3, n4⟩ := a8 i hi'
    have n5 := a4.read hi'
    simp only [List.getElem_append_left hi, List.length_append, List.length_singleton] at n2 n4 n5
    refine ⟨(hr.valueAt hO.stor hd.vw_pos hrem (by omega) ?_ ?_).trans (congrArg _ ?_), n5⟩
    · rw [hs, n2, n4]
    · rw [hs, n2, n5]
    · rw [hs, n2]
  have hbad : y.valueAt c d xs.length = .error .exc := by
    obtain ⟨n1, n2⟩ := m3 xs.length (by simp)
    obtain ⟨n3, n4⟩ := a8 xs.length (by simp)
    simp only [List.length_append, List.length_singleton] at n2 n4
    refine hr.valueAt_bad hO.stor hd.vw_pos hrem (v := v) (by omega) ?_ ?_
    · rw [hs, n4]; simp
    · rw [hs, n2]
      have : v % 2 ^ d.vw < 2 ^ d.vw := Nat.mod_lt _ (Nat.two_pow_pos _)
      simp; omega
  have hver : ∀ n i, i + n = xs.length → CmpDbgBucket.verify c y d b i (n + 1) = .error .exc := by
    intro n
    induction n with
    | zero =>
      intro i hi
      obtain ⟨q', e1, k, e2, e3, e4⟩ := hQ i (by omega)
      have : i = xs.length := by omega
      subst this
      simp only [CmpDbgBucket.verify, e1, hD.2.1, e2, e3, e4, hbad, ok_bind, ddcheck_ok, error_bind]
    | succ n ih =>
      intro i hi
      obtain ⟨q', e1, k, e2, e3, e4⟩ := hQ i (by omega)
      obtain ⟨f1, f2⟩ := hV i (by omega)
      rw [CmpDbgBucket.verify]
      simp only [e1, hD.2.1, e2, e3, e4, f1, f2, ok_bind, ddcheck_ok, ih (i + 1) (by omega)]
  rw [a1, hver xs.length 0 (by omega), error_bind]

/-! ## Erasure -/

theorem closeGap_eq (hc : c.v.good) (hq : 1 ≤ d.qw) (hk : d.qw ≤ c.kbits) :
    ∀ (n i : Nat) (x : CmpDbgBucket) (m : Buf) (L : Cells), CmpRaw c d x m L → 1 ≤ i → i + n = x.base.size → x.base.size ≤ L.length →
    (∀ j, i ≤ j → j < x.base.size → L[j]? = some (some (readBits m.bits (j * d.qw) d.qw))) →
    ∃ m' L', cmpLoop c.v d.qw (fun i => i * d.qw) (fun i => (i - 1) * d.qw) i n (some m) = .ok (some m') ∧
      cellDown 1 (some L) i n = .ok (some L') ∧ m'.alloc = m.alloc ∧
      CmpDbgBucket.closeGap c d i n x = .ok { x with base := { x.base with stor := some m' }, large := some L' } := by
  intro n
  induction n with
  | zero =>
    intro i x m L hr _ _ _ _
    refine ⟨m, L, rfl, rfl, rfl, ?_⟩
    obtain ⟨⟨st, sz⟩, ks, vs, lg, bits⟩ := x
    have h1 := hr.stor
    have h2 := hr.large
    simp only at h1 h2
    subst h1 h2
    rfl
  | succ n ih =>
    intro i x m L hr h1 hs hl hL
    have hi : i < x.base.size := by omega
    have hv := varBits_ge x.base.size (d.qw + d.vw) hc.pos
    obtain ⟨r1, r2, r3⟩ := entry_room (qw := d.qw) (vw := d.vw) hi
    obtain ⟨s1, s2, s3⟩ := entry_room (qw := d.qw) (vw := d.vw) (show i - 1 < x.base.size by omega)
    have hd : c.v.sb ∣ m.alloc := by rw [hr.alloc]; exact Nat.dvd_mul_right _ _
    have e1 := hr.quotientAt hc hq hk hi (hL i (by omega) hi)
    have e2 := hr.writeQuotient hc hq (i := i - 1) (by omega) (by omega) (readBits_lt m.bits (i * d.qw) d.qw)
    obtain ⟨m', L', a1, a2, a3, a4⟩ := ih (i + 1) { x with
      base := { x.base with stor := some { m with bits := writeBits m.bits ((i - 1) * d.qw) d.qw (readBits m.bits (i * d.qw) d.qw) } },
      large := some (L.set (i - 1) (some (readBits m.bits (i * d.qw) d.qw))) }
      { m with bits := writeBits m.bits ((i - 1) * d.qw) d.qw (readBits m.bits (i * d.qw) d.qw) }
      (L.set (i - 1) (some (readBits m.bits (i * d.qw) d.qw))) ⟨rfl, hr.alloc, hr.bits, rfl⟩ (by omega) (by show _ = x.base.size; omega)
      (by rw [List.length_set]; exact hl) (by
        intro j g1 g2
        have g2 : j < x.base.size := g2
        rw [List.getElem?_set, if_neg (by omega), hL j (by omega) g2, readBits_write_disjoint]
        rcases entry_disjoint (w := d.qw) (show i - 1 ≠ j by omega) with h | h
        · right; omega
        · left; omega)
    refine ⟨m', L', ?_, ?_, a3, ?_⟩
    · simp only [cmpLoop]
      rw [cmpRead_eq hc hd hq (by rw [hr.alloc]; omega), ok_bind, cmpWrite_eq hc hd hq (by rw [hr.alloc]; omega), ok_bind, a1]
    · simp only [cellDown, cellRead_get (hL i (by omega) hi), ok_bind, cellWrite_lt (show i - 1 < L.length by omega), a2]
    · simp only [CmpDbgBucket.closeGap, e1, ok_bind, e2]
      exact a4

theorem cmpDbgLoop_eq (hc : c.v.good) {bits : Nat} {src dst : Nat → Nat} : ∀ (n i : Nat) (st : VarB),
    (∀ j, i ≤ j → j < i + n → dst j + d.vw ≤ bits) →
    cmpDbgLoop c d bits src dst i n st = cmpLoop c.v d.vw src dst i n st := by
  intro n
  induction n with
  | zero => intro i st _; rfl
  | succ n ih =>
    intro i st h
    simp only [cmpDbgLoop, cmpLoop, ddcheck_ok (h i (by omega) (by omega)), ddcheck_ok hc.sb_lt, ok_bind]
    congr 1; funext v; congr 1; funext st'
    exact ih (i + 1) st' (fun j h1 h2 => h j (by omega) (by omega))

theorem realloc_size (c : VarCfg) (x : CmpBucket) (d : Dim) (old : Nat) : (x.realloc c d old).size = x.size := by
  unfold CmpBucket.realloc
  split
  · split
    · rfl
    · split <;> rfl
  · rfl

theorem CmpDbgBRep.erase (h : CmpDbgBRep c kw d b x xs) (hO : CmpDbgOK c kw lo hi) (hd : GoodDim 64 d) (hD : CmpDbgDim c kw lo hi d)
    {p : Nat} (hp : p < xs.length) :
    ∃ y, x.erase c d b p = .ok y ∧ CmpDbgBRep c kw d b y (xs.eraseIdx p) := by
  obtain ⟨d1, d2, d3, d4⟩ := hD
  have hc := hO.stor
  obtain ⟨_, hrem⟩ := hO.inv d.tb d3 d4
  rw [← d2] at hrem
  have hqp : 1 ≤ d.qw := hd.qw_pos
  have hwp : 1 ≤ d.vw := hd.vw_pos
  have hkw1 : 1 ≤ kw := by have := hd.qw_le; omega
  have hkw2 : kw ≤ 64 := by have := hd.kw_le; omega
  have hqk : d.qw ≤ c.kbits := by have := hd.qw_le; have := hO.kw_le; omega
  have hwidth : dbgWidth c.remOK d = .ok () := by
    simp only [dbgWidth, ddcheck_ok hrem, ddcheck_ok (show 0 < d.qw from hqp), ddcheck_ok hd.qw_le, ok_bind]
  have hs := h.base.size
  have hne : xs ≠ [] := List.ne_nil_of_length_pos (by omega)
  have hle := h.base.le
  have hver := h.verify hc hqp hqk hwp hrem d2 xs.length 0 (by omega)
  obtain ⟨ks, u1, u2⟩ := h.keys.erase hO.bytes hkw1 hkw2 hp
  have u1 : plainErase x.keys p xs.length = .ok ks := u1
  obtain ⟨cap, hV⟩ := h.vals hne
  obtain ⟨vs, w1, w2⟩ := (lawful_plain (sbits := 64) (by decide)).erase x.vals 64 cap _ p (by omega) (by omega) hV (by simpa using hp)
    (by simp)
  have w1 : plainErase x.vals p (xs.map Prod.snd).length = .ok vs := w1
  rw [List.length_map] at w1
  obtain ⟨m, L, hr, hlen, hx⟩ := h.raw hne
  have hr' : CmpRaw c d { x with keys := ks, vals := vs } m L := ⟨hr.stor, hr.alloc, hr.bits, hr.large⟩
  obtain ⟨m1, L1, a1, a2, a3, a4⟩ := closeGap_eq hc hqp hqk (xs.length - (p + 1)) (p + 1) _ m L hr' (by omega)
    (by show _ = x.base.size; omega) (by show x.base.size ≤ _; omega) (by
      intro j _ h2
      have h2 : j < x.base.size := h2
      obtain ⟨e1, _, e3, _⟩ := hx j (by omega)
      rw [e1]; exact e3)
  obtain ⟨L1', b1, b2, b3⟩ := cellDown_eq (Nat.le_refl 1) (xs.length - (p + 1)) (p + 1) L (by omega) (by
    intro j _ h2
    exact ⟨_, (hx j (by omega)).2.2.1⟩)
  rw [a2] at b1
  cases b1
  obtain ⟨L2, c1, c2, c3⟩ := cellDown_eq (Nat.le_refl 1) p xs.length L1 (by omega) (by
    intro j h1 h2
    rw [b3 j, if_neg (by omega)]
    have := (hx (j - xs.length) (by omega)).2.2.2
    rw [show xs.length + (j - xs.length) = j by omega] at this
    exact ⟨_, this⟩)
  obtain ⟨L3, f1, f2, f3⟩ := cellDown_eq (off := 2) (by omega) (xs.length - (p + 1)) (xs.length + p + 1) L2 (by omega) (by
    intro j h1 h2
    rw [c3 j, if_neg (by omega), b3 j, if_neg (by omega)]
    have := (hx (j - xs.length) (by omega)).2.2.2
    rw [show xs.length + (j - xs.length) = j by omega] at this
    exact ⟨_, this⟩)
  -- the compact storage
  obtain ⟨y, y1, y2⟩ := cmp_erase hc hqp hwp h.base hp
  unfold CmpBucket.erase at y1
  rw [hs, hr.stor, a1, ok_bind] at y1
  obtain ⟨st2, t1, y1⟩ := bind_eq_ok y1
  obtain ⟨st3, t2, y1⟩ := bind_eq_ok y1
  have hv := varBits_ge xs.length (d.qw + d.vw) hc.pos
  have hbits : x.bits = varBits c.v.sb xs.length (d.qw + d.vw) := h.bits
  have hmq : (xs.length - 1) * d.qw ≤ xs.length * d.qw := Nat.mul_le_mul_right _ (by omega)
  have g1 := cmpDbgLoop_eq (d := d) hc (bits := x.bits) (src := fun i => xs.length * d.qw + i * d.vw)
    (dst := fun i => (xs.length - 1) * d.qw + i * d.vw) p 0 (some m1) (by
      intro j _ h2
      obtain ⟨r1, r2, r3⟩ := entry_room (qw := d.qw) (vw := d.vw) (show j < xs.length by omega)
      rw [hbits]; omega)
  have g2 := cmpDbgLoop_eq (d := d) hc (bits := x.bits) (src := fun i => xs.length * d.qw + i * d.vw)
    (dst := fun i => (xs.length - 1) * d.qw + (i - 1) * d.vw) (xs.length - (p + 1)) (p + 1) st2 (by
      intro j h1 h2
      obtain ⟨r1, r2, r3⟩ := entry_room (qw := d.qw) (vw := d.vw) (show j - 1 < xs.length by omega)
      rw [hbits]; omega)
  rw [t1] at g1
  rw [t2] at g2
  have hsz : (xs.length + 255) % 256 = xs.length - 1 := by omega
  have hlen' : (xs.eraseIdx p).length = xs.length - 1 := by rw [List.length_eraseIdx, if_pos hp]
  simp only [hsz, realloc_size, pure_eq_ok, Except.ok.injEq] at y1
  have hquot : ∀ e ∈ xs.eraseIdx p, e.1 < 2 ^ d.qw := fun e he => h.quot e (List.mem_of_mem_eraseIdx he)
  -- everything before the last test
  have pre : ∀ r, (do
      let x' ← CmpDbgBucket.realloc c ⟨⟨st3, xs.length - 1⟩, ks, vs, some L3, x.bits⟩ d (xs.length - 1 + 1)
      x'.verify c d b 0 x'.base.size
      return if x'.base.size = 0 then x'.clear else x' : Res CmpDbgBucket) = .ok r → x.erase c d b p = .ok r := by
    intro r hr2
    unfold CmpDbgBucket.erase
    simp only [hwidth, hs, hver, u1, w1, ok_bind]
    rw [a4]
    simp only [ok_bind, c1, f1, g1, g2, ddcheck_ok (show 0 < xs.length by omega), hsz]
    exact hr2
  have hre : ∃ L4 : Cells, CmpDbgBucket.realloc c ⟨⟨st3, xs.length - 1⟩, ks, vs, some L3, x.bits⟩ d (xs.length - 1 + 1) =
      .ok ⟨CmpBucket.realloc c.v ⟨st3, xs.length - 1⟩ d (xs.length - 1 + 1), ks, vs, some L4,
        varBits c.v.sb (xs.length - 1) (d.qw + d.vw)⟩ ∧ L4.length = 2 * (xs.length - 1) ∧
      ∀ i, i < 2 * (xs.length - 1) → L4[i]? = L3[i]? := by
    refine ⟨L3.take (2 * (xs.length - 1)) ++ List.replicate (2 * (xs.length - 1) - L3.length) none, rfl, ?_, ?_⟩
    · rw [List.length_append, List.length_take, List.length_replicate]
      omega
    · intro i hi
      rw [List.getElem?_append_left (by rw [List.length_take]; omega), List.getElem?_take, if_pos hi]
  obtain ⟨L4, q1, q2, q3⟩ := hre
  rw [q1] at pre
  by_cases hk0 : xs.length - 1 = 0
  · refine ⟨_, pre _ (by simp only [ok_bind, realloc_size, hk0, CmpDbgBucket.verify, if_pos, pure_eq_ok]; rfl), ?_⟩
    have he : xs.eraseIdx p = [] := List.eq_nil_of_length_eq_zero (by omega)
    rw [he]
    exact ⟨⟨rfl, by simp, fun _ => rfl, fun h => absurd rfl h⟩, by simp, fun h => absurd rfl h, fun h => absurd rfl h,
      fun h => absurd rfl h, (varBits_zero hc).symm, fun _ => ⟨rfl, rfl, rfl⟩⟩
  · rw [if_neg hk0] at y1
    rw [y1] at pre
    have hR : CmpDbgBRep c kw d b ⟨y, ks, vs, some L4, varBits c.v.sb (xs.length - 1) (d.qw + d.vw)⟩ (xs.eraseIdx p) := by
      refine ⟨y2, hquot, u2, fun _ => ⟨cap, ?_⟩, fun _ => ⟨L4, rfl, by rw [hlen']; exact q2, ?_⟩, by rw [hlen'], ?_⟩
      · rw [map_eraseIdx]; exact w2
      · intro i hi
        rw [hlen'] at hi ⊢
        rw [q3 i (by omega), q3 _ (by omega), f3, f3, if_neg (by omega), c3, if_neg (by omega), b3]
        rw [List.getElem_eraseIdx]
        by_cases hip : i < p
        · obtain ⟨_, _, e3, e4⟩ := hx i (by omega)
          rw [if_neg (by omega), dif_pos hip, if_neg (by omega), c3, if_pos (by omega), b3, if_neg (by omega),
            show xs.length - 1 + i + 1 = xs.length + i by omega]
          exact ⟨e3, e4⟩
        · obtain ⟨_, _, e3, e4⟩ := hx (i + 1) (by omega)
          rw [if_pos (by omega), dif_neg hip, if_pos (by omega), c3, if_neg (by omega), b3, if_neg (by omega),
            show xs.length - 1 + i + 2 = xs.length + (i + 1) by omega]
          exact ⟨e3, e4⟩
      · intro he
        rw [he] at hlen'
        simp at hlen'
        omega
    have hys : y.size = xs.length - 1 := by rw [hR.base.size, hlen']
    refine ⟨_, pre _ ?_, hR⟩
    have := hR.verify hc hqp hqk hwp hrem d2 (xs.length - 1) 0 (by omega)
    simp only [ok_bind, hys, this, if_neg hk0, pure_eq_ok]

/-! ## The store -/

/-- the storage holds the buckets `cont` -/
structure CmpDbgRep (c : CmpDbgCfg) (kw lo hi : Nat) (s : CmpDbg) (d : Dim) (cont : Cont) : Prop where
  n : s.n = 2 ^ d.tb
  dim : CmpDbgDim c kw lo hi d
  bkt : ∀ b < 2 ^ d.tb, CmpDbgBRep c kw d b (s.bkt b) (cont b)

theorem CmpDbgRep.get {s : CmpDbg} {cont : Cont} (h : CmpDbgRep c kw lo hi s d cont) {b : Nat} (hb : b < 2 ^ d.tb) :
    s.get b = .ok (s.bkt b) := by
  unfold CmpDbg.get; rw [h.n, if_pos hb]

theorem CmpDbgRep.set {s : CmpDbg} {cont : Cont} (h : CmpDbgRep c kw lo hi s d cont) {b : Nat} {y : CmpDbgBucket}
    {ys : List (Nat × Nat)} (hy : CmpDbgBRep c kw d b y ys) : CmpDbgRep c kw lo hi (s.set b y) d (upd cont b ys) where
  n := h.n
  dim := h.dim
  bkt := by
    intro b' hb'
    show CmpDbgBRep c kw d b' (upd s.bkt b y b') _
    by_cases hbb : b' = b
    · subst hbb; rw [upd_same, upd_same]; exact hy
    · rw [upd_other _ _ hbb, upd_other _ _ hbb]; exact h.bkt b' hb'

theorem cmpWidth_ok (hO : CmpDbgOK c kw lo hi) (hd : GoodDim 64 d) (hD : CmpDbgDim c kw lo hi d) :
    dbgWidth c.remOK d = .ok () ∧ c.remOK d.kw d.tb = true := by
  obtain ⟨_, d2, d3, d4⟩ := hD
  obtain ⟨_, hrem⟩ := hO.inv d.tb d3 d4
  rw [← d2] at hrem
  exact ⟨by simp only [dbgWidth, ddcheck_ok hrem, ddcheck_ok (show 0 < d.qw from hd.qw_pos), ddcheck_ok hd.qw_le, ok_bind], hrem⟩

/-- The storage of a debug build obeys the laws of the storage of a release build, if values have at most `value_width()`
bits. -/
theorem lawful_cmpDbg (hO : CmpDbgOK c kw lo hi) :
    LawfulStore c.ops (fun w v => v % 2 ^ w) (CmpDbgRep c kw lo hi) 255 1 64 (fun w v => v < 2 ^ w) (CmpDbgDim c kw lo hi) where
  alloc := fun d => ⟨_, rfl, fun _ hD => ⟨rfl, hD, fun _ _ => ⟨⟨rfl, by simp, fun _ => rfl, fun h => absurd rfl h⟩, by simp,
    fun h => absurd rfl h, fun h => absurd rfl h, fun h => absurd rfl h,
    (varBits_zero hO.stor).symm, fun _ => ⟨rfl, rfl, rfl⟩⟩⟩⟩
  size := by
    intro s d cont b _ h hb
    simp only [CmpDbgCfg.ops, h.get hb, ok_bind, pure_eq_ok, (h.bkt b hb).base.size]
  locate := by
    intro s d cont b q hd h hb hq
    have hB := h.bkt b hb
    have hqk : d.qw ≤ c.kbits := by have := hd.qw_le; have := hO.kw_le; have := h.dim.2.1; omega
    have hscan : CmpDbgBucket.scan c (s.bkt b) d b q 0 (s.bkt b).base.size = .ok (posOf ((cont b).map Prod.fst) q) := by
      rw [hB.base.size, hB.scan hO.stor hd.qw_pos hqk h.dim.2.1 q _ 0 (by omega), List.drop_zero, Nat.zero_add]
      rfl
    have hpos : posOf ((cont b).map Prod.fst) q ≠ NPOS → posOf ((cont b).map Prod.fst) q < (s.bkt b).base.size := by
      unfold posOf
      split
      · rename_i hm
        intro _
        rw [hB.base.size, ← List.length_map (f := Prod.fst)]
        exact List.idxOf_lt_length_of_mem hm
      · intro e; exact absurd rfl e
    simp only [CmpDbgCfg.ops, (cmpWidth_ok hO hd h.dim).1, ddcheck_ok (msb_le_of_lt hq), h.get hb, hscan, ddcheck_ok hpos, ok_bind,
      pure_eq_ok]
  full := by
    intro s d cont b _ h hb
    refine ⟨_, by simp only [CmpDbgCfg.ops, h.get hb, ok_bind, pure_eq_ok]; rfl, ?_⟩
    intro hf
    have hf : (s.bkt b).base.size = 255 := by simpa using hf
    refine ⟨[b], by simp, by simp, by simp, by simpa using hb, ?_⟩
    rw [(h.bkt b hb).base.size] at hf
    simp; omega
  push := by
    intro s d cont b q v hd h hb hq hf hv
    have hB := h.bkt b hb
    have hlt : (cont b).length < 255 := by
      simp only [CmpDbgCfg.ops, h.get hb, ok_bind, pure_eq_ok, Except.ok.injEq, beq_eq_false_iff_ne] at hf
      have := hB.base.le
      have := hB.base.size
      omega
    obtain ⟨y, h1, h2⟩ := hB.push hO hd h.dim hb hlt hq hv
    rw [← Nat.mod_eq_of_lt hv] at h2
    exact ⟨_, by simp only [CmpDbgCfg.ops, h.get hb, ok_bind, h1, pure_eq_ok], h.set h2⟩
  quotientAt := by
    intro s d cont b i hd h hb hi
    have hqk : d.qw ≤ c.kbits := by have := hd.qw_le; have := hO.kw_le; have := h.dim.2.1; omega
    obtain ⟨k, e1, e2, e3⟩ := (h.bkt b hb).keys.read hi
    simp only [CmpDbgCfg.ops, (cmpWidth_ok hO hd h.dim).1, h.get hb, (h.bkt b hb).quotientAt hO.stor hd.qw_pos hqk hi, h.dim.2.1,
      e1, e2, e3, ddcheck_ok, ok_bind, pure_eq_ok]
  valueAt := by
    intro s d cont b i hd h hb hi
    simp only [CmpDbgCfg.ops, h.get hb, ok_bind]
    exact (h.bkt b hb).valueAt hO.stor hd.vw_pos (cmpWidth_ok hO hd h.dim).2 hi
  writeValue := by
    intro s d cont b i v hd h hb hi hv
    obtain ⟨y, h1, h2⟩ := (h.bkt b hb).writeValue hO.stor hd.vw_pos hd.vw_le (cmpWidth_ok hO hd h.dim).2 hi hv
    rw [← Nat.mod_eq_of_lt hv] at h2
    refine ⟨_, by simp only [CmpDbgCfg.ops, h.get hb, ok_bind, h1, pure_eq_ok]; rfl, ?_⟩
    rw [Nat.mod_eq_of_lt hv] at h2
    simp only [Nat.mod_eq_of_lt hv]
    exact h.set h2
  eraseAt := by
    intro s d cont b i hd h hb hi
    obtain ⟨y, h1, h2⟩ := (h.bkt b hb).erase hO hd h.dim hi
    exact ⟨_, by simp only [CmpDbgCfg.ops, h.get hb, ok_bind, h1, pure_eq_ok], h.set h2⟩
  shrink := fun s d cont b _ h _ => ⟨s, rfl, h⟩
  len := by
    intro s d cont b _ h hb
    have := (h.bkt b hb).base.le
    have : (255 : Nat) < NPOS := by decide
    omega

end SC
