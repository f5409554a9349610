import Verif.Sep.Serial
/-!
# The bytes `separate_chaining_table::serialize` writes

The first section says what the bytes should look like, without reference to the functions that write them.
-/
namespace SC
variable {KB VB : Type}

/-! ## The format -/

/-- how entries of a given width are written: width, entries, bytes -/
abbrev Fmt := Nat → List Nat → List Nat → Prop

/-- every entry takes `n` bytes, the least significant byte first -/
def fixedFmt (n : Nat) : Fmt := fun _ xs bytes => bytes = xs.flatMap (toBytes n)

/-- The bytes form one little-endian number, the entries are its digits to base `2^w`; the number of bits is rounded up to a
multiple of `sb`.  Nothing is said about the bits above the last entry. -/
def packedFmt (sb : Nat) : Fmt := fun w xs bytes =>
  bytes.length = sb / 8 * ceilDiv (xs.length * w) sb ∧ (∀ y ∈ bytes, y < 256) ∧
    ∀ i (h : i < xs.length), ofBytes bytes / 2 ^ (i * w) % 2 ^ w = xs[i]

/-- nothing is written -/
def noFmt : Fmt := fun _ _ bytes => bytes = []

/-- the bucket classes for keys and their formats -/
inductive KeyFmt : (B : Type) → BucketOps B → (W : Nat) → Fmt → Prop
  | plain {s : Nat} (h : s = 8 ∨ s = 16 ∨ s = 32 ∨ s = 64) : KeyFmt PlainB (plainOps s) s (fixedFmt (s / 8))
  | class {s : Nat} (h : s = 8 ∨ s = 16 ∨ s = 32 ∨ s = 64) : KeyFmt PlainB (classOps s) s (fixedFmt (s / 8))
  | avx {s : Nat} (h : s = 8 ∨ s = 16 ∨ s = 32 ∨ s = 64) : KeyFmt PlainB (avxOps s) s (fixedFmt (s / 8))
  | varwidth {c : VarCfg} (h : c.good) (hflat : c.strict = false) : KeyFmt VarB (varOps c) 64 (packedFmt c.sb)

/-- the bucket classes for values and their formats -/
inductive ValueFmt : (B : Type) → BucketOps B → (tr : Nat → Nat → Nat) → Fmt → Prop
  | plain {s : Nat} (h : s = 8 ∨ s = 16 ∨ s = 32 ∨ s = 64) : ValueFmt PlainB (plainOps s) (fun _ v => v % 2 ^ s) (fixedFmt (s / 8))
  | class {s : Nat} (h : s = 8 ∨ s = 16 ∨ s = 32 ∨ s = 64) : ValueFmt PlainB (classOps s) (fun _ v => v % 2 ^ s) (fixedFmt (s / 8))
  | varwidth {c : VarCfg} (h : c.good) (hflat : c.strict = false) : ValueFmt VarB (varOps c) (fun w v => v % 2 ^ w) (packedFmt c.sb)
  | null : ValueFmt Unit nullOps (fun _ _ => 1) noFmt

/-- The blocks of the buckets from `b` on.  `rows` are the pairs in the buckets; a bucket without pairs takes no bytes, another one
is written as the quotients of its keys followed by its values. -/
inductive Blocks (H : HashMapping) (tb vw : Nat) (fk fv : Fmt) : Nat → List (List (Nat × Nat)) → List Nat → Prop
  | nil {b : Nat} : Blocks H tb vw fk fv b [] []
  | empty {b : Nat} {rows : List (List (Nat × Nat))} {bytes : List Nat} : Blocks H tb vw fk fv (b + 1) rows bytes →
      Blocks H tb vw fk fv b ([] :: rows) bytes
  | block {b : Nat} {row : List (Nat × Nat)} {qs : List Nat} {rows : List (List (Nat × Nat))} {kb vb bytes : List Nat} :
      row ≠ [] → row.map (fun e => H.map e.1 tb) = qs.map (fun q => .ok (q, b)) → fk (H.remainderWidth tb) qs kb →
      fv vw (row.map Prod.snd) vb → Blocks H tb vw fk fv (b + 1) rows bytes →
      Blocks H tb vw fk fv b (row :: rows) (kb ++ vb ++ bytes)

/-- The bytes of a table with `2^tb` buckets (none if `tb = 0`) whose buckets hold the pairs `rows`: the two widths and `tb` in one
byte each, the number of elements in eight bytes, one byte per bucket with its size, the blocks. -/
def SepFile (H : HashMapping) (fk fv : Fmt) (kw vw tb : Nat) (rows : List (List (Nat × Nat))) (bytes : List Nat) : Prop :=
  rows.length = (if tb = 0 then 0 else 2 ^ tb) ∧ (∀ row ∈ rows, row.length < 256) ∧
  ∃ body, bytes = toBytes 1 kw ++ toBytes 1 vw ++ toBytes 1 tb ++ toBytes 8 rows.flatten.length ++ rows.map List.length ++ body ∧
    Blocks H tb vw fk fv 0 rows body

/-- The format leaves no choice for entries of width `w`. -/
def Fmt.Exact (f : Fmt) (w : Nat) : Prop := ∀ xs bytes bytes', f w xs bytes → f w xs bytes' → bytes = bytes'

theorem fixedFmt_exact (n w : Nat) : (fixedFmt n).Exact w := fun _ _ _ h h' => h.trans h'.symm

theorem noFmt_exact (w : Nat) : noFmt.Exact w := fun _ _ _ h h' => h.trans h'.symm

/-! ## Buckets -/

theorem ofBytes_inj : ∀ {xs ys : List Nat}, xs.length = ys.length → (∀ x ∈ xs, x < 256) → (∀ y ∈ ys, y < 256) →
    ofBytes xs = ofBytes ys → xs = ys
  | [], [], _, _, _, _ => rfl
  | x :: xs, y :: ys, hl, hx, hy, h => by
    have h1 := hx x (by simp)
    have h2 := hy y (by simp)
    simp only [ofBytes] at h
    have e : x = y := by omega
    have e2 : ofBytes xs = ofBytes ys := by omega
    rw [e, ofBytes_inj (by simpa using hl) (fun z hz => hx z (by simp [hz])) (fun z hz => hy z (by simp [hz])) e2]

theorem ofBytes_lt : ∀ {xs : List Nat}, (∀ x ∈ xs, x < 256) → ofBytes xs < 2 ^ (8 * xs.length)
  | [], _ => by simp [ofBytes]
  | x :: xs, h => by
    have h1 := h x (by simp)
    have h2 := ofBytes_lt (fun z hz => h z (List.mem_cons_of_mem _ hz))
    simp only [ofBytes, List.length_cons, Nat.mul_add, Nat.pow_add]
    rw [show (2 : Nat) ^ (8 * 1) = 256 by rfl]
    omega

/-- two numbers of at most `n` digits to base `2^w` with the same digits are equal -/
theorem digits_inj {w : Nat} : ∀ {n a b : Nat}, a < 2 ^ (n * w) → b < 2 ^ (n * w) →
    (∀ i < n, a / 2 ^ (i * w) % 2 ^ w = b / 2 ^ (i * w) % 2 ^ w) → a = b
  | 0, a, b, ha, hb, _ => by simp only [Nat.zero_mul, Nat.pow_zero] at ha hb; omega
  | n + 1, a, b, ha, hb, h => by
    have hp := Nat.two_pow_pos w
    have e0 := h 0 (by omega)
    simp only [Nat.zero_mul, Nat.pow_zero, Nat.div_one] at e0
    have e : (2 : Nat) ^ ((n + 1) * w) = 2 ^ (n * w) * 2 ^ w := by rw [Nat.succ_mul, Nat.pow_add]
    rw [e] at ha hb
    have e1 : a / 2 ^ w = b / 2 ^ w := by
      apply digits_inj (n := n) ((Nat.div_lt_iff_lt_mul hp).mpr ha) ((Nat.div_lt_iff_lt_mul hp).mpr hb)
      intro i hi
      have := h (i + 1) (by omega)
      rw [Nat.succ_mul, Nat.add_comm, Nat.pow_add, ← Nat.div_div_eq_div_mul, ← Nat.div_div_eq_div_mul] at this
      exact this
    rw [← Nat.div_add_mod a (2 ^ w), ← Nat.div_add_mod b (2 ^ w), e0, e1]

theorem ceilDiv_self_mul (k : Nat) {b : Nat} (hb : 0 < b) : b * ceilDiv (b * k) b = b * k := by
  have h1 := ceilDiv_mul_ge (b * k) hb
  have h2 : ceilDiv (b * k) b ≤ k := ceilDiv_le_of hb (Nat.le_refl _)
  have := Nat.mul_le_mul_left b h2
  omega

/-- no padding if the width is a multiple of the bits of a storage word -/
theorem packedFmt_exact {sb w : Nat} (h8 : 8 ∣ sb) (hs : 0 < sb) (h : sb ∣ w) : (packedFmt sb).Exact w := by
  intro xs bytes bytes' ⟨h1, h2, h3⟩ ⟨h1', h2', h3'⟩
  refine ofBytes_inj (h1.trans h1'.symm) h2 h2' (digits_inj (n := xs.length) (w := w) ?_ ?_ ?_)
  · have e : 8 * bytes.length = xs.length * w := by
      obtain ⟨k, rfl⟩ := h
      obtain ⟨j, rfl⟩ := h8
      rw [h1, Nat.mul_div_cancel_left _ (by omega), ← Nat.mul_assoc, Nat.mul_left_comm xs.length, ceilDiv_self_mul _ hs]
    rw [← e]; exact ofBytes_lt h2
  · have e : 8 * bytes'.length = xs.length * w := by
      obtain ⟨k, rfl⟩ := h
      obtain ⟨j, rfl⟩ := h8
      rw [h1', Nat.mul_div_cancel_left _ (by omega), ← Nat.mul_assoc, Nat.mul_left_comm xs.length, ceilDiv_self_mul _ hs]
    rw [← e]; exact ofBytes_lt h2'
  · intro i hi
    rw [h3 i hi, h3' i hi]

theorem ofBytes_memBytes (m : Bits) : ∀ n, ofBytes (memBytes m n) = readBits m 0 (8 * n) := by
  intro n
  unfold memBytes
  suffices h : ∀ n s, ofBytes ((List.range' s n).map (fun j => readBits m (8 * j) 8)) = readBits m (8 * s) (8 * n) by
    rw [List.range_eq_range']; exact h n 0
  intro n
  induction n with
  | zero => intro s; rfl
  | succ n ih =>
    intro s
    rw [List.range'_succ, List.map_cons, ofBytes, ih]
    apply Nat.eq_of_testBit_eq
    intro i
    have hlt := readBits_lt m (8 * s) 8
    rw [Nat.add_comm, show (256 : Nat) = 2 ^ 8 by rfl, Nat.testBit_two_pow_mul_add _ hlt]
    simp only [testBit_readBits]
    by_cases hi : i < 8
    · simp [hi, show i < 8 * (n + 1) by omega]
    · rw [if_neg hi, show 8 * (s + 1) + (i - 8) = 8 * s + i by omega]
      congr 1
      simp only [decide_eq_decide]
      omega

theorem readBits_digit (m : Bits) {n p w : Nat} (h : p + w ≤ n) : readBits m 0 n / 2 ^ p % 2 ^ w = readBits m p w := by
  apply Nat.eq_of_testBit_eq
  intro i
  rw [Nat.testBit_mod_two_pow, Nat.testBit_div_two_pow, testBit_readBits, testBit_readBits, Nat.zero_add]
  by_cases hi : i < w
  · rw [Nat.add_comm i p]; simp [hi, show p + i < n by omega]
  · simp [hi]

theorem memBytes_lt (m : Bits) (n : Nat) : ∀ y ∈ memBytes m n, y < 256 := by
  intro y hy
  simp only [memBytes, List.mem_map] at hy
  obtain ⟨j, _, rfl⟩ := hy
  exact readBits_lt m (8 * j) 8

theorem plainSerialize_fixed {s : Nat} (ys : List Nat) : ∀ pre rest : Cells,
    plainSerialize s (some (pre ++ (ys.map some ++ rest))) pre.length ys.length = .ok (ys.flatMap (toBytes (s / 8))) := by
  induction ys with
  | nil => intro pre rest; rfl
  | cons y ys ih =>
    intro pre rest
    have h1 := ih (pre ++ [some y]) rest
    simp only [List.length_cons, plainSerialize, List.map_cons, List.cons_append, cellRead_append, ok_bind]
    have e : pre ++ some y :: (List.map some ys ++ rest) = (pre ++ [some y]) ++ (List.map some ys ++ rest) := by simp
    rw [e, show pre.length + 1 = (pre ++ [some y]).length by simp, h1]
    rfl

/-- what the serialisation of a bucket is -/
def SerOK {B : Type} (ops : BucketOps B) (Rep : B → Nat → Nat → List Nat → Prop) (f : Fmt) : Prop :=
  ∀ b w cap xs, 1 ≤ w → Rep b w cap xs → ∃ bytes, ops.serialize b xs.length w = .ok bytes ∧ f w xs bytes

theorem ser_plain {s : Nat} {ops : BucketOps PlainB} (h : ops.serialize = (plainOps s).serialize) :
    SerOK ops (PlainRep s) (fixedFmt (s / 8)) := by
  intro b w cap xs _ ⟨rest, hb, _, _⟩
  subst hb
  exact ⟨_, by rw [h]; exact plainSerialize_fixed xs [] rest, rfl⟩

theorem ser_var {c : VarCfg} (hc : c.good) : SerOK (varOps c) (VarRep c) (packedFmt c.sb) := by
  intro b w cap xs hw ⟨m, hb, hd, hcap, hlen, hx⟩
  subst hb
  have h8 : 8 ∣ c.sb := by rcases hc.1 with h | h | h | h <;> rw [h] <;> decide
  have hxm : xs.length * w ≤ m.alloc := Nat.le_trans (Nat.mul_le_mul_right _ hlen) hcap
  have hle : varBits c.sb xs.length w ≤ m.alloc := by
    obtain ⟨k, hk⟩ := hd
    rw [hk] at hxm ⊢
    exact Nat.mul_le_mul_left _ (ceilDiv_le_of hc.pos hxm)
  have e8 : 8 * (varBits c.sb xs.length w / 8) = varBits c.sb xs.length w :=
    Nat.mul_div_cancel' (Nat.dvd_trans h8 (Nat.dvd_mul_right _ _))
  refine ⟨memBytes m.bits (varBits c.sb xs.length w / 8), ?_, ?_, memBytes_lt _ _, ?_⟩
  · simp only [varOps, varSerialize, deref, ok_bind]
    rw [guardB_ok (Or.inr hle)]; rfl
  · rw [memBytes_length, varBits]
    obtain ⟨j, hj⟩ := h8
    rw [hj, Nat.mul_assoc, Nat.mul_div_cancel_left _ (by omega), Nat.mul_div_cancel_left _ (by omega)]
  · intro i hi
    rw [ofBytes_memBytes, e8, readBits_digit, hx i hi]
    have := idx_end (w := w) hi
    have := varBits_ge xs.length w hc.pos
    omega

theorem KeyFmt.lawful {B : Type} {ops : BucketOps B} {W : Nat} {f : Fmt} (h : KeyFmt B ops W f) :
    ∃ norm Rep, LawfulBucket ops norm Rep ∧ LawfulFind ops norm Rep ∧ (∀ w x, w ≤ W → x < 2 ^ w → norm w x = x) ∧ SerOK ops Rep f := by
  cases h with
  | plain hs => exact ⟨_, _, lawful_plain (dvd8 hs), lawful_plain_find _, fun w x h1 h2 => mod_of_width h1 h2, ser_plain rfl⟩
  | «class» hs => exact ⟨_, _, lawful_class (dvd8 hs), lawful_class_find _, fun w x h1 h2 => mod_of_width h1 h2, ser_plain rfl⟩
  | avx hs => exact ⟨_, _, lawful_avx hs, lawful_avx_find hs, fun w x h1 h2 => mod_of_width h1 h2, ser_plain rfl⟩
  | varwidth hc hf => exact ⟨_, _, lawful_var hc hf, lawful_var_find hc, fun w x _ h2 => Nat.mod_eq_of_lt h2, ser_var hc⟩

theorem ValueFmt.lawful {B : Type} {ops : BucketOps B} {tr : Nat → Nat → Nat} {f : Fmt} (h : ValueFmt B ops tr f) :
    (∃ Rep, LawfulBucket ops tr Rep ∧ SerOK ops Rep f) ∧ ∀ w x, tr w (tr w x) = tr w x := by
  cases h with
  | plain hs => exact ⟨⟨_, lawful_plain (dvd8 hs), ser_plain rfl⟩, fun w x => Nat.mod_mod _ _⟩
  | «class» hs => exact ⟨⟨_, lawful_class (dvd8 hs), ser_plain rfl⟩, fun w x => Nat.mod_mod _ _⟩
  | varwidth hc hf => exact ⟨⟨_, lawful_var hc hf, ser_var hc⟩, fun w x => Nat.mod_mod _ _⟩
  | null => exact ⟨⟨_, lawful_null, fun _ _ _ _ _ _ => ⟨[], rfl, rfl⟩⟩, fun _ _ => rfl⟩

/-! ## Tables -/

variable {p : SepCfg KB VB} {hk : HashKind} {tr : Nat → Nat → Nat} {W kw vw : Nat} {fk fv : Fmt}

/-- the invariant of the tables, together with the formats of its buckets -/
theorem SepOK.parFmt (h : SepOK p hk tr W kw vw) (hf : KeyFmt KB p.kops W fk) (hf' : ValueFmt VB p.vops tr fv) :
    ∃ P, SepParOK p hk tr W kw vw false P ∧ ∃ KRep VRep, P.Rep = SepRep p KRep VRep false ∧ SerOK p.kops KRep fk ∧
      SerOK p.vops VRep fv := by
  obtain ⟨knorm, KRep, h1, h2, h3, h3'⟩ := hf.lawful
  obtain ⟨⟨VRep, h4, h4'⟩, h5⟩ := hf'.lawful
  have hM : 2 ≤ p.maxSize := by have := h.max; unfold SepCfg.maxSize; omega
  obtain ⟨L, hg⟩ := sep_laws (ov := dummyOverflow) h1 h2 h4 h3 (h5 vw) (lawful_dummy (tr vw)) (h5 vw) hM h.hash h.vw_pos
    h.vw_le false
  exact ⟨_, ⟨L, hg, ⟨KRep, VRep, rfl⟩, knorm, KRep, VRep, rfl, h1, h4⟩, KRep, VRep, rfl, h3', h4'⟩

theorem serBuckets_format {KRep : KB → Nat → Nat → List Nat → Prop} {VRep : VB → Nat → Nat → List Nat → Prop}
    {H : HashMapping} (hK : SerOK p.kops KRep fk) (hV : SerOK p.vops VRep fv) {d : Dim} (hq : d.qw = H.remainderWidth d.tb)
    (hq1 : 1 ≤ d.qw) (hv1 : 1 ≤ d.vw) (hH : LawfulMapping H kw d.tb) {s : SepStore KB VB} {c : Cont}
    (hc : COK H kw d.tb c []) (h : SepRep p KRep VRep false s d c) :
    ∀ n b, b + n = 2 ^ d.tb → ∃ bytes, p.serBuckets s d (List.range' b n) = .ok bytes ∧
      Blocks H d.tb d.vw fk fv b ((List.range' b n).map (fun b => bEnts H d.tb b (c b))) bytes := by
  intro n
  induction n with
  | zero => intro b _; exact ⟨[], rfl, .nil⟩
  | succ n ih =>
    intro b hb
    obtain ⟨bytes, e1, e2⟩ := ih (b + 1) (by omega)
    have hlt : b < 2 ^ d.tb := by omega
    have hB := h.bkt b hlt
    rw [List.range'_succ, List.map_cons]
    by_cases h0 : c b = []
    · have hz : (s.bkt b).size = 0 := by rw [hB.size, h0]; rfl
      refine ⟨bytes, by simp only [SepCfg.serBuckets, h.get hlt, ok_bind, hz, if_true, e1], ?_⟩
      rw [h0]
      exact .empty e2
    · obtain ⟨cap, r1, r2, _⟩ := hB.rep h0
      obtain ⟨kb, k1, k2⟩ := hK _ _ _ _ hq1 r1
      obtain ⟨vb, v1, v2⟩ := hV _ _ _ _ hv1 r2
      rw [List.length_map] at k1 v1
      have hl : ¬ (c b).length = 0 := fun e => h0 (List.length_eq_zero_iff.mp e)
      refine ⟨kb ++ vb ++ bytes, ?_, .block (qs := (c b).map Prod.fst) ?_ ?_ (hq ▸ k2) ?_ e2⟩
      · simp only [SepCfg.serBuckets, h.get hlt, ok_bind, hB.size, if_neg hl, k1, v1, e1, pure_eq_ok]
      · intro e; exact h0 (List.map_eq_nil_iff.mp e)
      · simp only [bEnts, List.map_map]
        apply List.map_congr_left
        intro e he
        exact (map_of_mem hH hc hlt he).2.1
      · have : (bEnts H d.tb b (c b)).map Prod.snd = (c b).map Prod.snd := by
          simp [bEnts, List.map_map, Function.comp_def]
        rw [this]; exact v2

/-- The bytes of a table. -/
theorem serialize_format {P : Par (SepStore KB VB) Unit} (hP : SepParOK p hk tr W kw vw false P)
    {KRep : KB → Nat → Nat → List Nat → Prop} {VRep : VB → Nat → Nat → List Nat → Prop} (hrep : P.Rep = SepRep p KRep VRep false)
    (hK : SerOK p.kops KRep fk) (hV : SerOK p.vops VRep fv) {t : Tab (SepStore KB VB) Unit} {l : List (Nat × Nat)}
    (h : Inv (sepMap p hk) P t l) :
    ∃ bytes rows, p.serialize hk t = .ok bytes ∧ t.pairs (sepMap p hk) = .ok rows.flatten ∧
      SepFile (hk.mapping kw) fk fv kw vw t.tb rows bytes ∧ ∀ row ∈ rows, row.length ≤ p.maxSize := by
  have L := hP.laws
  have ekw : P.kw = kw := by obtain ⟨_, _, rfl⟩ := hP.par; rfl
  have evw : P.vw = vw := by obtain ⟨_, _, rfl⟩ := hP.par; rfl
  rcases h with ⟨h1, h2, h3, h4, h5, h6, rfl, hst, n, full, h7⟩ | ⟨c, o, full, hl, hp⟩
  · have hbc : t.bucketCount = 0 := by simp [Tab.bucketCount, h5]
    refine ⟨toBytes 1 t.kw ++ toBytes 1 t.vw ++ toBytes 1 t.tb ++ toBytes 8 t.elems ++ [] ++ [], [], by
      simp only [SepCfg.serialize, hbc, List.range_zero, List.mapM_nil, pure_eq_ok, ok_bind, SepCfg.serBuckets], ?_, ?_⟩
    · have hs : (sepMap p hk).ov.size t.ovf = 0 := L.ovf.size _ _ _ _ h7
      simp only [Tab.pairs, Tab.beginNav, hbc, Tab.scanUp, ok_bind, Nat.lt_irrefl, if_false, hs, pure_eq_ok, Tab.visit,
        navEq_true (show t.tb < 64 by omega) (invalid_end (show t.tb < 64 by omega)), if_true, List.flatten_nil]
    · refine ⟨⟨by simp [h5], by simp, [], ?_, .nil⟩, by simp⟩
      rw [h1, h2, ekw, evw, h6]
      rfl
  · have ho : o = [] := hP.noOverflow _ _ _ _ hl.orep
    subst ho
    have hgood := hl.good L
    have hbc := hl.bc L
    have hR : SepRep p KRep VRep false t.store (t.dim (sepMap p hk)) c := by have := hl.rep; rwa [hrep] at this
    have hlen : ∀ b < 2 ^ t.tb, (c b).length < 256 := by
      intro b hb
      have := (hR.bkt b hb).le
      unfold SepCfg.maxSize at this
      omega
    have hmap := hl.map_ok L
    obtain ⟨r, e1, e2⟩ := serBuckets_format (H := (sepMap p hk).hash P.kw) hK hV (d := t.dim (sepMap p hk))
      (by unfold Tab.dim; rw [hl.hash]) hgood.qw_pos hgood.vw_pos hmap hl.cok hR (2 ^ t.tb) 0 (Nat.zero_add _)
    have hsizes : (List.range t.bucketCount).mapM (fun b => (do
        let x ← t.store.get b
        return x.size % 256 : Res Nat)) = .ok ((List.range t.bucketCount).map (fun b => (c b).length)) := by
      apply mapM_ok
      intro b hb
      rw [hbc] at hb
      have hb := List.mem_range.mp hb
      rw [hR.get hb, ok_bind, pure_eq_ok, (hR.bkt b hb).size, Nat.mod_eq_of_lt (hlen b hb)]
    have hst : stored ((sepMap p hk).hash P.kw) t.tb c =
        ((List.range' 0 (2 ^ t.tb)).map (fun b => bEnts ((sepMap p hk).hash P.kw) t.tb b (c b))).flatten := by
      unfold stored
      rw [List.range_eq_range', List.flatMap_def]
    obtain ⟨n, v1, v2⟩ := hl.visit_begin L (show t.elems < t.size + 1 by simp [Tab.size])
    refine ⟨_, (List.range' 0 (2 ^ t.tb)).map (fun b => bEnts ((sepMap p hk).hash P.kw) t.tb b (c b)), by
      unfold SepCfg.serialize
      rw [hsizes, ok_bind, hbc, List.range_eq_range', e1, ok_bind, pure_eq_ok], ?_, ⟨?_, ?_, r, ?_, ?_⟩, ?_⟩
    · simp only [Tab.pairs, v1, ok_bind, v2, hst]
    · have := hl.tb_pos L
      rw [List.length_map, List.length_range', if_neg (by omega)]
    · intro row hrow
      obtain ⟨b, hb, rfl⟩ := List.mem_map.mp hrow
      rw [bEnts, List.length_map]
      exact hlen b (by simpa using hb)
    · rw [← hst, hl.tkw, hl.tvw, hl.elems, ekw, evw]
      have e3 : (ents ((sepMap p hk).hash P.kw) t.tb c []).length = (stored ((sepMap p hk).hash P.kw) t.tb c).length := by
        simp [ents]
      have e4 : ((List.range' 0 (2 ^ t.tb)).map (fun b => bEnts ((sepMap p hk).hash P.kw) t.tb b (c b))).map List.length =
          (List.range' 0 (2 ^ t.tb)).map (fun b => (c b).length) := by
        simp [bEnts, List.map_map, Function.comp_def]
      rw [ekw] at e3 e4
      rw [e3, e4]
    · rw [← ekw, ← evw]
      have : (t.dim (sepMap p hk)).vw = P.vw := hl.tvw
      rw [this] at e2
      exact e2
    · intro row hrow
      obtain ⟨b, hb, rfl⟩ := List.mem_map.mp hrow
      rw [bEnts, List.length_map]
      exact (hR.bkt b (show b < 2 ^ t.tb by simpa using hb)).le

/-! ## Tables with the same pairs in the same order -/

theorem Blocks.bucket {H : HashMapping} {tb : Nat} : ∀ {rows : List (List (Nat × Nat))} {b : Nat} {bytes : List Nat},
    Blocks H tb vw fk fv b rows bytes → ∀ i (hi : i < rows.length), ∀ e ∈ rows[i], ∃ q, H.map e.1 tb = .ok (q, b + i) := by
  intro rows b bytes h
  induction h with
  | nil => intro i hi; simp at hi
  | empty _ ih =>
    intro i hi e he
    cases i with
    | zero => simp at he
    | succ i =>
      obtain ⟨q, hq⟩ := ih i (by simpa using hi) e (by simpa using he)
      exact ⟨q, by rw [hq]; congr 2; omega⟩
  | @block b row qs rows kb vb bytes _ hm _ _ _ ih =>
    intro i hi e he
    cases i with
    | zero =>
      have : H.map e.1 tb ∈ row.map (fun e => H.map e.1 tb) := List.mem_map.mpr ⟨e, by simpa using he, rfl⟩
      rw [hm] at this
      obtain ⟨q, _, hq⟩ := List.mem_map.mp this
      exact ⟨q, hq.symm⟩
    | succ i =>
      obtain ⟨q, hq⟩ := ih i (by simpa using hi) e (by simpa using he)
      exact ⟨q, by rw [hq]; congr 2; omega⟩

/-- the flattened list determines the rows if every entry knows its row -/
theorem rows_unique {α : Type} (R : α → Nat → Prop) (hR : ∀ e i j, R e i → R e j → i = j) :
    ∀ {rows rows' : List (List α)} (b : Nat), rows.length = rows'.length → rows.flatten = rows'.flatten →
      (∀ i (hi : i < rows.length), ∀ e ∈ rows[i], R e (b + i)) → (∀ i (hi : i < rows'.length), ∀ e ∈ rows'[i], R e (b + i)) →
      rows = rows'
  | [], [], _, _, _, _, _ => rfl
  | row :: rows, row' :: rows', b, hl, hf, h, h' => by
    have key : ∀ {r r' : List α} {x x' : List (List α)}, r ++ x.flatten = r' ++ x'.flatten → (∀ e ∈ r, R e b) →
        (∀ i (hi : i < x'.length), ∀ e ∈ x'[i], R e (b + 1 + i)) → r.length ≤ r'.length := by
      intro r r' x x' e hr hx
      rcases Nat.lt_or_ge r'.length r.length with hlt | hge
      · exfalso
        have hmem : r[r'.length] ∈ x'.flatten := by
          have e1 : (r ++ x.flatten)[r'.length]? = some r[r'.length] := by
            rw [List.getElem?_append_left hlt, List.getElem?_eq_getElem hlt]
          rw [e, List.getElem?_append_right (Nat.le_refl _)] at e1
          exact List.mem_of_getElem? e1
        obtain ⟨l, hl, hm⟩ := List.mem_flatten.mp hmem
        obtain ⟨i, hi, rfl⟩ := List.mem_iff_getElem.mp hl
        have := hR _ _ _ (hr _ (List.getElem_mem hlt)) (hx i hi _ hm)
        omega
      · exact hge
    have hh : ∀ i (hi : i < rows.length), ∀ e ∈ rows[i], R e (b + 1 + i) := by
      intro i hi e he
      have := h (i + 1) (by simpa using hi) e (by simpa using he)
      rwa [show b + 1 + i = b + (i + 1) by omega]
    have hh' : ∀ i (hi : i < rows'.length), ∀ e ∈ rows'[i], R e (b + 1 + i) := by
      intro i hi e he
      have := h' (i + 1) (by simpa using hi) e (by simpa using he)
      rwa [show b + 1 + i = b + (i + 1) by omega]
    have h0 : ∀ e ∈ row, R e b := fun e he => h 0 (by simp) e (by simpa using he)
    have h0' : ∀ e ∈ row', R e b := fun e he => h' 0 (by simp) e (by simpa using he)
    simp only [List.flatten_cons] at hf
    have hlen : row.length = row'.length := Nat.le_antisymm (key hf h0 hh') (key hf.symm h0' hh)
    obtain ⟨e1, e2⟩ := List.append_inj hf hlen
    rw [e1, rows_unique R hR (b + 1) (by simpa using hl) e2 hh hh']

theorem Blocks.unique {H : HashMapping} {tb : Nat} (hk : fk.Exact (H.remainderWidth tb)) (hv : fv.Exact vw) :
    ∀ {rows : List (List (Nat × Nat))} {b : Nat} {bytes bytes' : List Nat}, Blocks H tb vw fk fv b rows bytes →
      Blocks H tb vw fk fv b rows bytes' → bytes = bytes' := by
  intro rows b bytes bytes' h
  induction h generalizing bytes' with
  | nil => intro h'; cases h'; rfl
  | empty _ ih =>
    intro h'
    cases h' with
    | empty h' => exact ih h'
    | block h1 => exact absurd rfl h1
  | @block b row qs rows kb vb bytes h0 hm h1 h2 _ ih =>
    intro h'
    cases h' with
    | empty => exact absurd rfl h0
    | @block _ _ qs' _ kb' vb' bytes' _ hm' h1' h2' h3' =>
      have eq : qs = qs' := by
        have e := hm.symm.trans hm'
        have inj : Function.Injective (fun q : Nat => (Except.ok (q, b) : Res (Nat × Nat))) := by
          intro x y hxy
          cases hxy
          rfl
        exact (List.map_inj_right inj).mp e
      subst eq
      rw [hk _ _ _ h1 h1', hv _ _ _ h2 h2', ih h3']

/-- Formats without padding determine the file. -/
theorem SepFile.unique {H : HashMapping} {tb : Nat} (hk : fk.Exact (H.remainderWidth tb)) (hv : fv.Exact vw)
    {rows rows' : List (List (Nat × Nat))} {bytes bytes' : List Nat} (h : SepFile H fk fv kw vw tb rows bytes)
    (h' : SepFile H fk fv kw vw tb rows' bytes') (hr : rows.flatten = rows'.flatten) : bytes = bytes' := by
  obtain ⟨h1, _, body, rfl, h2⟩ := h
  obtain ⟨h1', _, body', rfl, h2'⟩ := h'
  have e : rows = rows' := by
    refine rows_unique (fun e i => ∃ q, H.map e.1 tb = .ok (q, i)) ?_ 0 (h1.trans h1'.symm) hr h2.bucket h2'.bucket
    rintro e i j ⟨q, a⟩ ⟨q', a'⟩
    rw [a] at a'
    cases a'
    rfl
  subst e
  rw [h2.unique hk hv h2']

end SC
