import Verif.Sep.Table
import Verif.Bucket.Debug
import Verif.Hash.Debug
/-!
# `separate_chaining_table` in a debug build

Without `NDEBUG` the table keeps a copy of all keys in `m_plainkeys` and compares it with what is stored in the buckets.
-/
namespace SC

variable {KB VB : Type}

/-- The arrays of a table of a debug build: those of the release build and `m_plainkeys` (sep:166), for each bucket a
null pointer or an array of keys. -/
structure SepDbg (KB VB : Type) where
  base : SepStore KB VB
  plain : Nat → PlainB

/-- Template arguments.  The functions of the buckets in `p` execute the assertions of a debug build. -/
structure SepDbgCfg (KB VB : Type) where
  p : SepCfg KB VB
  /-- `m_data == nullptr` for buckets of keys and of values (`null_value_bucket` has no such test) -/
  knull : KB → Bool
  vnull : VB → Bool
  /-- `m_length` of a bucket of keys -/
  klen : KB → Nat
  /-- `hash_mapping_t(key_width)` -/
  hash : Nat → HashMapping
  /-- the test of `remainder_width`, hash.hpp:57 -/
  remOK : (kw tb : Nat) → Bool
  /-- bits of `key_type` -/
  kbits : Nat

/-- `m_hash.remainder_width(m_buckets)` and the two tests that follow: sep:182-184, 440-442, 554-556, 652-654, 726-728;
iterator.hpp:47-49 -/
def dbgWidth (remOK : (kw tb : Nat) → Bool) (d : Dim) : Res Unit := do
  ddcheck true (remOK d.kw d.tb = true)
  ddcheck true (0 < d.qw)
  ddcheck true (d.qw ≤ d.kw)

/-- the tests of `arbitrary_resize::assign` and `size` (size.hpp:59-60, 64); the member `m_buckets` of the strategy is
the length of the arrays -/
def dbgStrat (p : SepCfg KB VB) (s : SepStore KB VB) (b : Nat) : Res Unit :=
  ddcheck true (p.strat = .arbitrary → b < s.n)

/-- the tests of `arbitrary_resize::size_after_increment`, size.hpp:78-80 -/
def dbgGrow (p : SepCfg KB VB) (s : SepStore KB VB) (b size : Nat) : Res Unit := do
  dbgStrat p s b
  ddcheck true (p.strat = .arbitrary → arbResize size ≤ 255)

/-- The loop of `locate`, sep:567-575; `n` iterations are left. -/
def SepDbgCfg.scan (c : SepDbgCfg KB VB) (d : Dim) (b : Nat) (keys : KB) (plain : PlainB) (q : Nat) : (i n : Nat) → Res Nat
  | _, 0 => .ok NPOS
  | i, n + 1 => do
    let x ← c.p.kops.read keys i d.qw
    let x := x % 2 ^ c.kbits
    let k ← (c.hash d.kw).invMap x b d.tb
    let k' ← cellRead plain i
    ddcheck true (k % 2 ^ c.kbits = k')
    if x = q then return i else c.scan d b keys plain q (i + 1) n

/-- Make room for another key, sep:657-671: the tests of `initialize` (bucket.hpp:90, 241, 326, 415) and of the resize
strategy, and the new array of plain keys. -/
def SepDbgCfg.roomPlain (c : SepDbgCfg KB VB) (s : SepDbg KB VB) (d : Dim) (b : Nat) (x : SepBucket KB VB) : Res PlainB :=
  if x.size = 0 then do
    ddcheck true (c.knull x.keys = true)
    ddcheck true (c.vnull x.vals = true)
    dbgStrat c.p s.base b
    (plainOps c.kbits).init 1 d.kw
  else do
    let size := (x.size + 1) % 256
    let pl ← (plainOps c.kbits).resize (s.plain b) x.size size d.kw
    if c.p.strat.needsResize x.cap size then dbgGrow c.p s.base b size else .ok ()
    return pl

/-- The storage functions of a debug build.

`push` obtains the key from the quotient: the caller has tested that `inv_map` gives the key (sep:614).
`quotientAt` serves `reserve` (sep:448-450), which compares with `m_plainkeys`, and `navigator::key`
(iterator.hpp:54), which does not; the model compares in both cases.
`DDCHECK(m_maxbucketsizes == nullptr)` (size.hpp:68) is executed by `Tab.reserveEmpty`, see `sepDbgTable`. -/
def SepDbgCfg.ops (c : SepDbgCfg KB VB) : StoreOps (SepDbg KB VB) where
  -- sep:422-429
  alloc d := do
    let s ← c.p.ops.alloc d
    return ⟨s, fun _ => none⟩
  size s d b := c.p.ops.size s.base d b
  -- sep:553-585
  locate s d b q := do
    dbgWidth c.remOK d
    ddcheck true (mostSignificantBit q ≤ (d.qw : Int))
    let x ← s.base.get b
    let r ← c.scan d b x.keys (s.plain b) q 0 x.size
    let pos ← c.p.ops.locate s.base d b q
    ddcheck true (pos = r)
    ddcheck true (pos ≠ NPOS → pos < x.size)
    return pos
  full s d b := c.p.ops.full s.base d b
  -- sep:649-683
  push s d b q v := do
    dbgWidth c.remOK d
    let k ← (c.hash d.kw).invMap q b d.tb
    let x ← s.base.get b
    let pl ← c.roomPlain s d b x
    ddcheck true (k ≤ 2 ^ d.kw - 1)
    let pl ← (plainOps c.kbits).write pl x.size k d.kw
    ddcheck true (x.size * d.qw / 64 + x.size * d.qw % 64 < 64 * ceilDiv ((x.size + 1) * d.qw) 64)
    ddcheck true (d.qw ≤ c.kbits)
    let s' ← c.p.ops.push s.base d b q v
    let q' ← c.p.ops.quotientAt s' d b x.size
    let k' ← (c.hash d.kw).invMap q' b d.tb
    ddcheck true (k' = k)
    return ⟨s', upd s.plain b pl⟩
  quotientAt s d b i := do
    dbgWidth c.remOK d
    ddcheck true (b < s.base.n)
    let q ← c.p.ops.quotientAt s.base d b i
    let k ← (c.hash d.kw).invMap q b d.tb
    let k' ← cellRead (s.plain b) i
    ddcheck true (k % 2 ^ c.kbits = k')
    return q
  -- sep:268-269
  valueAt s d b i := do
    ddcheck true (b < s.base.n)
    c.p.ops.valueAt s.base d b i
  -- sep:691-693
  writeValue s d b i v := do
    ddcheck true (b < s.base.n)
    ddcheck true (v ≤ 2 ^ d.vw - 1)
    let s' ← c.p.ops.writeValue s.base d b i v
    return { s with base := s' }
  -- sep:717-749, clear(bucket): sep:215-222
  eraseAt s d b i := do
    ddcheck true (b < s.base.n)
    let x ← s.base.get b
    ddcheck true (i < x.size)
    ddcheck true (x.size ≤ c.klen x.keys)
    dbgWidth c.remOK d
    let s' ← c.p.ops.eraseAt s.base d b i
    let pl ← (plainOps c.kbits).erase (s.plain b) i x.size d.kw
    ddcheck true (0 < x.size)
    if x.size = 1 then
      dbgStrat c.p s.base b
      return ⟨s', upd s.plain b none⟩
    else return ⟨s', upd s.plain b pl⟩
  -- sep:181-193
  shrink s d b := do
    dbgWidth c.remOK d
    let x ← s.base.get b
    if x.size ≠ 0 ∧ c.p.strat.canShrink x.cap x.size = true then dbgStrat c.p s.base b else .ok ()
    let s' ← c.p.ops.shrink s.base d b
    return { s with base := s' }

/-! ## No assertion fails -/

/-- what the assertions need -/
structure SepDbgOK (c : SepDbgCfg KB VB) (KRep : KB → Nat → Nat → List Nat → Prop) (kw : Nat) (lo hi : Nat) : Prop where
  knull0 : c.knull c.p.kops.empty = true
  knull1 : ∀ k, c.knull (c.p.kops.clear k) = true
  vnull0 : c.vnull c.p.vops.empty = true
  vnull1 : ∀ v, c.vnull (c.p.vops.clear v) = true
  klen : ∀ b w cap xs, KRep b w cap xs → xs.length ≤ c.klen b
  bytes : 8 ∣ c.kbits
  kw_le : kw ≤ c.kbits
  inv : ∀ tb, lo ≤ tb → tb ≤ hi → HashInv (c.hash kw) kw tb ∧ c.remOK kw tb = true

/-- dimensions that occur -/
def SepDbgDim (c : SepDbgCfg KB VB) (kw lo hi : Nat) (d : Dim) : Prop :=
  d.qw = (c.hash kw).remainderWidth d.tb ∧ d.kw = kw ∧ lo ≤ d.tb ∧ d.tb ≤ hi

/-- contents of `m_plainkeys[b]` for the entries `xs` -/
def PlainKeys (H : HashMapping) (kbits kw tb b : Nat) (pl : PlainB) (xs : List (Nat × Nat)) : Prop :=
  xs ≠ [] → ∃ ks cap, PlainRep kbits pl kw cap ks ∧ xs.map (fun e => H.invMap e.1 b tb) = ks.map .ok

structure SepDbgRep (c : SepDbgCfg KB VB) (KRep : KB → Nat → Nat → List Nat → Prop) (VRep : VB → Nat → Nat → List Nat → Prop)
    (tight : Bool) (kw lo hi : Nat) (s : SepDbg KB VB) (d : Dim) (cont : Cont) : Prop where
  base : SepRep c.p KRep VRep tight s.base d cont
  dim : SepDbgDim c kw lo hi d
  quot : ∀ b < 2 ^ d.tb, ∀ e ∈ cont b, e.1 < 2 ^ d.qw
  plain : ∀ b < 2 ^ d.tb, PlainKeys (c.hash kw) c.kbits kw d.tb b (s.plain b) (cont b)

theorem PlainKeys.read {H : HashMapping} {kbits kw tb b : Nat} {pl : PlainB} {xs : List (Nat × Nat)}
    (h : PlainKeys H kbits kw tb b pl xs) {i : Nat} (hi : i < xs.length) :
    ∃ k, H.invMap xs[i].1 b tb = .ok k ∧ k % 2 ^ kbits = k ∧ cellRead pl i = .ok k := by
  obtain ⟨ks, cap, ⟨rest, rfl, hlen, hlt⟩, h2⟩ := h (by intro e; rw [e] at hi; simp at hi)
  have hl : xs.length = ks.length := by simpa using congrArg List.length h2
  have hik : i < ks.length := by omega
  have e := congrArg (fun l => l[i]?) h2
  simp only [List.getElem?_map, List.getElem?_eq_getElem hi, List.getElem?_eq_getElem hik, Option.map_some,
    Option.some.injEq] at e
  refine ⟨ks[i], e, Nat.mod_eq_of_lt (hlt _ (List.getElem_mem hik)), ?_⟩
  simp [cellRead, List.getElem?_append_left, hik]

theorem PlainKeys.set {H : HashMapping} {kbits kw tb b : Nat} {pl : PlainB} {xs : List (Nat × Nat)} {i v : Nat}
    (h : PlainKeys H kbits kw tb b pl xs) (hi : i < xs.length) : PlainKeys H kbits kw tb b pl (xs.set i (xs[i].1, v)) := by
  intro _
  obtain ⟨ks, cap, h1, h2⟩ := h (by intro e; rw [e] at hi; simp at hi)
  refine ⟨ks, cap, h1, ?_⟩
  rw [List.map_set, ← h2]
  have : H.invMap xs[i].1 b tb = (xs.map (fun e => H.invMap e.1 b tb))[i]'(by simpa using hi) := by simp
  simp only [this, List.set_getElem_self]

theorem PlainKeys.erase {H : HashMapping} {kbits kw tb b : Nat} {pl : PlainB} {xs : List (Nat × Nat)} {i : Nat}
    (h8 : 8 ∣ kbits) (h1 : 1 ≤ kw) (h2 : kw ≤ 64)
    (h : PlainKeys H kbits kw tb b pl xs) (hi : i < xs.length) :
    ∃ pl', (plainOps kbits).erase pl i xs.length kw = .ok pl' ∧ PlainKeys H kbits kw tb b pl' (xs.eraseIdx i) := by
  obtain ⟨ks, cap, hr, hm⟩ := h (by intro e; rw [e] at hi; simp at hi)
  have hl : xs.length = ks.length := by simpa using congrArg List.length hm
  obtain ⟨pl', e1, e2⟩ := (lawful_plain h8).erase pl kw cap ks i h1 h2 hr (by omega) (by simp)
  exact ⟨pl', by rw [hl]; exact e1, fun _ => ⟨_, cap, e2, by rw [map_eraseIdx, map_eraseIdx, hm]⟩⟩

/-- appending a key -/
theorem PlainKeys.push {H : HashMapping} {kbits kw tb b : Nat} {pl : PlainB} {xs : List (Nat × Nat)} {q v k : Nat}
    (h8 : 8 ∣ kbits) (h1 : 1 ≤ kw) (h2 : kw ≤ 64) (hk : k < 2 ^ kbits) (hq : H.invMap q b tb = .ok k) (hx : xs ≠ [])
    (h : PlainKeys H kbits kw tb b pl xs) :
    ∃ pl1 pl2, (plainOps kbits).resize pl xs.length (xs.length + 1) kw = .ok pl1 ∧
      (plainOps kbits).write pl1 xs.length k kw = .ok pl2 ∧ PlainKeys H kbits kw tb b pl2 (xs ++ [(q, v)]) := by
  obtain ⟨ks, cap, hr, hm⟩ := h hx
  have hl : xs.length = ks.length := by simpa using congrArg List.length hm
  obtain ⟨pl1, e1, e2⟩ := (lawful_plain h8).resize pl kw cap ks (ks.length + 1) h1 h2 hr (by omega) (by omega)
  obtain ⟨pl2, e3, e4⟩ := (lawful_plain h8).write_new pl1 kw _ ks k h1 h2 e2 (by omega) trivial
  refine ⟨pl1, pl2, by rw [hl]; exact e1, by rw [hl]; exact e3, fun _ => ⟨_, _, e4, ?_⟩⟩
  simp only [List.map_append, hm, List.map_cons, List.map_nil, hq, Nat.mod_eq_of_lt hk]

/-- the first key -/
theorem PlainKeys.first {H : HashMapping} {kbits kw tb b : Nat} {q v k : Nat}
    (h8 : 8 ∣ kbits) (h1 : 1 ≤ kw) (h2 : kw ≤ 64) (hk : k < 2 ^ kbits) (hq : H.invMap q b tb = .ok k) :
    ∃ pl1 pl2, (plainOps kbits).init 1 kw = .ok pl1 ∧
      (plainOps kbits).write pl1 0 k kw = .ok pl2 ∧ PlainKeys H kbits kw tb b pl2 [(q, v)] := by
  obtain ⟨pl1, e1, e2⟩ := (lawful_plain h8).init 1 kw kw h1 (Nat.le_refl _) h2
  obtain ⟨pl2, e3, e4⟩ := (lawful_plain h8).write_new pl1 kw _ [] k h1 h2 e2 (by simp) trivial
  exact ⟨pl1, pl2, e1, e3, fun _ => ⟨_, _, e4, by simp [hq, Nat.mod_eq_of_lt hk]⟩⟩

variable {c : SepDbgCfg KB VB} {knorm vnorm : Nat → Nat → Nat} {KRep : KB → Nat → Nat → List Nat → Prop}
  {VRep : VB → Nat → Nat → List Nat → Prop} {tight : Bool} {kw lo hi : Nat} {kok vok : Nat → Nat → Prop}

theorem dbgWidth_ok {W : Nat} {d : Dim} (hO : SepDbgOK c KRep kw lo hi) (hd : GoodDim W d) (h : SepDbgDim c kw lo hi d) :
    dbgWidth c.remOK d = .ok () := by
  obtain ⟨_, h2, h3, h4⟩ := h
  have := (hO.inv d.tb h3 h4).2
  rw [← h2] at this
  simp only [dbgWidth, ddcheck_ok this, ddcheck_ok (show 0 < d.qw from hd.qw_pos), ddcheck_ok hd.qw_le, ok_bind]

theorem dbgStrat_ok {s : SepStore KB VB} {d : Dim} {cont : Cont} (h : SepRep c.p KRep VRep tight s d cont) {b : Nat}
    (hb : b < 2 ^ d.tb) : dbgStrat c.p s b = .ok () := by
  unfold dbgStrat
  rw [ddcheck_ok (fun _ => by rw [h.n]; exact hb)]

theorem dbgGrow_ok {s : SepStore KB VB} {d : Dim} {cont : Cont} (h : SepRep c.p KRep VRep tight s d cont) {b n : Nat}
    (hb : b < 2 ^ d.tb) (h1 : 1 ≤ n) (h2 : n ≤ 255) : dbgGrow c.p s b n = .ok () := by
  unfold dbgGrow
  rw [dbgStrat_ok h hb, ok_bind, ddcheck_ok (fun _ => (arbResize_ge h1 h2).2)]

theorem scan_ok (hK : LawfulCore c.p.kops knorm KRep false kok) {d : Dim} {b q cap : Nat} {keys : KB} {pl : PlainB}
    {xs : List (Nat × Nat)} (h1 : 1 ≤ d.qw) (h2 : d.qw ≤ 64) (hr : KRep keys d.qw cap (xs.map Prod.fst))
    (hp : PlainKeys (c.hash d.kw) c.kbits kw d.tb b pl xs) (hlt : ∀ e ∈ xs, e.1 < 2 ^ c.kbits) :
    ∀ (n i : Nat), i + n = xs.length → c.scan d b keys pl q i n =
      .ok (if q ∈ (xs.drop i).map Prod.fst then i + ((xs.drop i).map Prod.fst).idxOf q else NPOS) := by
  intro n
  induction n with
  | zero =>
    intro i hi
    have : xs.drop i = [] := List.drop_eq_nil_of_le (by omega)
    simp [SepDbgCfg.scan, this]
  | succ n ih =>
    intro i hi
    have hi' : i < xs.length := by omega
    have hread := hK.read keys d.qw cap _ i h1 h2 hr (by simpa using hi')
    obtain ⟨k, e1, e2, e3⟩ := hp.read hi'
    have hq : xs[i].1 % 2 ^ c.kbits = xs[i].1 := Nat.mod_eq_of_lt (hlt _ (List.getElem_mem hi'))
    have hd : xs.drop i = xs[i] :: xs.drop (i + 1) := List.drop_eq_getElem_cons hi'
    simp only [SepDbgCfg.scan, hread, ok_bind, List.getElem_map, hq, e1, e3, e2, ddcheck_ok]
    by_cases hx : xs[i].1 = q
    · rw [if_pos hx, if_pos (by rw [hd, List.map_cons, hx]; exact List.mem_cons_self), hd, List.map_cons, hx, List.idxOf_cons_self]
      rfl
    · rw [if_neg hx, ih (i + 1) (by omega), hd]
      simp only [List.map_cons, List.mem_cons]
      have hx' : ¬ q = xs[i].1 := fun e => hx e.symm
      by_cases hm : q ∈ (xs.drop (i + 1)).map Prod.fst
      · rw [if_pos hm, if_pos (.inr hm), List.idxOf_cons, beq_false_of_ne hx, cond_false]
        congr 1; omega
      · rw [if_neg hm, if_neg (fun e => e.elim hx' hm)]

/-- The storage of a debug build obeys the same laws, if values have at most `value_width()` bits. -/
theorem lawful_sepDbg {W : Nat} (hK : LawfulCore c.p.kops knorm KRep false kok)
    (hKf : LawfulFind c.p.kops knorm KRep) (hV : LawfulCore c.p.vops vnorm VRep false vok)
    (hn : ∀ w x, w ≤ W → x < 2 ^ w → knorm w x = x) (hko : ∀ w x, w ≤ W → x < 2 ^ w → kok w x) (tight : Bool)
    (hO : SepDbgOK c KRep kw lo hi) :
    LawfulStore c.ops vnorm (SepDbgRep c KRep VRep tight kw lo hi) c.p.maxSize 1 W (fun w v => vok w v ∧ v < 2 ^ w)
      (SepDbgDim c kw lo hi) := by
  have L := lawful_sep_core hK hKf hV hn hko tight
  constructor
  case alloc =>
    intro d
    obtain ⟨s, e1, e2⟩ := L.alloc d
    refine ⟨⟨s, fun _ => none⟩, by simp only [SepDbgCfg.ops, e1, ok_bind, pure_eq_ok], fun g1 g2 => ?_⟩
    exact ⟨e2 g1 trivial, g2, by simp, fun _ _ h => absurd rfl h⟩
  case size => exact fun s d cont b hd h hb => L.size _ d cont b hd h.base hb
  case full => exact fun s d cont b hd h hb => L.full _ d cont b hd h.base hb
  case len => exact fun s d cont b hd h hb => L.len _ d cont b hd h.base hb
  case locate =>
    intro s d cont b q hd h hb hq
    have hx := h.base.bkt b hb
    have hqw : d.qw ≤ 64 := Nat.le_trans hd.qw_le hd.kw_le
    have hlt : ∀ e ∈ cont b, e.1 < 2 ^ c.kbits := fun e he => Nat.lt_of_lt_of_le (h.quot b hb e he)
      (Nat.pow_le_pow_right (by omega) (Nat.le_trans hd.qw_le (by rw [h.dim.2.1]; exact hO.kw_le)))
    have hloc := L.locate _ d cont b q hd h.base hb hq
    have hscan : c.scan d b (s.base.bkt b).keys (s.plain b) q 0 (s.base.bkt b).size =
        .ok (posOf ((cont b).map Prod.fst) q) := by
      rw [hx.size]
      by_cases hne : cont b = []
      · simp [hne, SepDbgCfg.scan, posOf]
      · obtain ⟨cap, hk, _, _⟩ := hx.rep hne
        have := scan_ok (q := q) hK hd.qw_pos hqw hk (by rw [h.dim.2.1]; exact h.plain b hb) hlt (cont b).length 0 (by omega)
        rw [this]
        simp only [List.drop_zero, Nat.zero_add, posOf]
    have hpos : posOf ((cont b).map Prod.fst) q ≠ NPOS → posOf ((cont b).map Prod.fst) q < (s.base.bkt b).size := by
      unfold posOf
      split
      · rename_i hm
        intro _
        rw [hx.size, ← List.length_map (f := Prod.fst)]
        exact List.idxOf_lt_length_of_mem hm
      · intro e; exact absurd rfl e
    simp only [SepDbgCfg.ops, dbgWidth_ok hO hd h.dim, ddcheck_ok (msb_le_of_lt hq), h.base.get hb, hscan, hloc, ok_bind,
      ddcheck_ok hpos, ddcheck_ok, pure_eq_ok]
  case push =>
    intro s d cont b q v hd h hb hq hf hvo
    have hx := h.base.bkt b hb
    have hM : c.p.maxSize ≤ 255 := by unfold SepCfg.maxSize; omega
    have hlt : (cont b).length < c.p.maxSize := by
      have hf' : c.p.ops.full s.base d b = .ok false := hf
      simp only [SepCfg.ops, h.base.get hb, ok_bind, pure_eq_ok, Except.ok.injEq, beq_eq_false_iff_ne, ne_eq, hx.size] at hf'
      have := hx.le
      omega
    obtain ⟨s', e1, e2⟩ := L.push _ d cont b q v hd h.base hb hq hf hvo.1
    obtain ⟨d1, d2, d3, d4⟩ := h.dim
    obtain ⟨k, k1, k2⟩ := (hO.inv d.tb d3 d4).1.inv q b (by rw [← d1]; exact hq) hb
    have hkb : k < 2 ^ c.kbits := Nat.lt_of_lt_of_le k2 (Nat.pow_le_pow_right (by omega) hO.kw_le)
    have hkw1 : 1 ≤ kw := by have := hd.qw_pos; have := hd.qw_le; omega
    have hkw2 : kw ≤ 64 := by have := hd.kw_le; omega
    have hqa := L.quotientAt s' d _ b (cont b).length hd e2 hb (by simp)
    simp only [upd_same, List.getElem_append_right (Nat.le_refl _), Nat.sub_self, List.getElem_cons_zero] at hqa
    have hc2 : (cont b).length * d.qw / 64 + (cont b).length * d.qw % 64 <
        64 * ceilDiv (((cont b).length + 1) * d.qw) 64 := by
      have := ceilDiv_mul_ge (((cont b).length + 1) * d.qw) (show 0 < 64 by omega)
      have hqp := hd.qw_pos
      have e : ((cont b).length + 1) * d.qw = (cont b).length * d.qw + d.qw := Nat.succ_mul _ _
      rw [e] at this ⊢
      generalize (cont b).length * d.qw = z at *
      generalize ceilDiv (z + d.qw) 64 = y at *
      omega
    have hqk : d.qw ≤ c.kbits := Nat.le_trans hd.qw_le (by rw [d2]; exact hO.kw_le)
    have main : ∃ pl1 pl2, c.roomPlain s d b (s.base.bkt b) = .ok pl1 ∧
        (plainOps c.kbits).write pl1 (cont b).length k kw = .ok pl2 ∧
        PlainKeys (c.hash kw) c.kbits kw d.tb b pl2 (cont b ++ [(q, vnorm d.vw v)]) := by
      unfold SepDbgCfg.roomPlain
      rw [d2, hx.size]
      by_cases hz : cont b = []
      · obtain ⟨pl1, pl2, p1, p2, p3⟩ := PlainKeys.first (v := vnorm d.vw v) hO.bytes hkw1 hkw2 hkb k1
        refine ⟨pl1, pl2, ?_, by rw [hz]; exact p2, by rw [hz]; exact p3⟩
        obtain ⟨n1, n2⟩ := hx.nil hz
        have m1 : c.knull (s.base.bkt b).keys = true := by
          rcases n1 with n | ⟨k, n⟩ <;> rw [n]
          · exact hO.knull0
          · exact hO.knull1 k
        have m2 : c.vnull (s.base.bkt b).vals = true := by
          rcases n2 with n | ⟨k, n⟩ <;> rw [n]
          · exact hO.vnull0
          · exact hO.vnull1 k
        rw [if_pos (by rw [hz]; rfl), ddcheck_ok m1, ok_bind, ddcheck_ok m2, ok_bind, dbgStrat_ok h.base hb, ok_bind, p1]
      · obtain ⟨pl1, pl2, p1, p2, p3⟩ := (h.plain b hb).push (v := vnorm d.vw v) hO.bytes hkw1 hkw2 hkb k1 hz
        refine ⟨pl1, pl2, ?_, p2, p3⟩
        have hl : 0 < (cont b).length := List.length_pos_iff.mpr hz
        rw [if_neg (by omega)]
        simp only [Nat.mod_eq_of_lt (show (cont b).length + 1 < 256 by omega), p1, ok_bind,
          dbgGrow_ok h.base hb (show 1 ≤ (cont b).length + 1 by omega) (show (cont b).length + 1 ≤ 255 by omega), ite_self,
          pure_eq_ok]
    obtain ⟨pl1, pl2, p1, p2, p3⟩ := main
    refine ⟨⟨s', upd s.plain b pl2⟩, ?_, e2, h.dim, ?_, ?_⟩
    · simp only [SepDbgCfg.ops, dbgWidth_ok hO hd h.dim, d2, k1, h.base.get hb, hx.size, p1, ddcheck_ok (show k ≤ 2 ^ kw - 1 by omega),
        p2, ddcheck_ok hc2, ddcheck_ok hqk, e1, hqa, ddcheck_ok, ok_bind, pure_eq_ok]
    · intro b' hb' e he
      by_cases eb : b' = b
      · subst eb
        rw [upd_same] at he
        rcases List.mem_append.mp he with he | he
        · exact h.quot _ hb _ he
        · rw [List.mem_singleton.mp he]; exact hq
      · rw [upd_other _ _ eb] at he
        exact h.quot _ hb' _ he
    · intro b' hb'
      by_cases eb : b' = b
      · subst eb
        simp only [upd_same]; exact p3
      · simp only [upd_other _ _ eb]; exact h.plain _ hb'
  case quotientAt =>
    intro s d cont b i hd h hb hi
    obtain ⟨k, e1, e2, e3⟩ := (h.plain b hb).read hi
    simp only [SepDbgCfg.ops, dbgWidth_ok hO hd h.dim, ddcheck_ok (show b < s.base.n by rw [h.base.n]; exact hb),
      L.quotientAt _ d cont b i hd h.base hb hi, h.dim.2.1, e1, e2, e3, ddcheck_ok, ok_bind, pure_eq_ok]
  case valueAt =>
    intro s d cont b i hd h hb hi
    simp only [SepDbgCfg.ops, ddcheck_ok (show b < s.base.n by rw [h.base.n]; exact hb), ok_bind]
    exact L.valueAt _ d cont b i hd h.base hb hi
  case writeValue =>
    intro s d cont b i v hd h hb hi hvo
    obtain ⟨s', e1, e2⟩ := L.writeValue _ d cont b i v hd h.base hb hi hvo.1
    refine ⟨{ s with base := s' }, ?_, e2, h.dim, ?_, ?_⟩
    · simp only [SepDbgCfg.ops, ddcheck_ok (show b < s.base.n by rw [h.base.n]; exact hb),
        ddcheck_ok (show v ≤ 2 ^ d.vw - 1 by have := hvo.2; omega), e1, ok_bind, pure_eq_ok]
    · intro b' hb' e he
      by_cases eb : b' = b
      · subst eb
        rw [upd_same] at he
        obtain he | rfl := List.mem_or_eq_of_mem_set he
        · exact h.quot _ hb _ he
        · exact h.quot _ hb (cont _)[i] (List.getElem_mem hi)
      · rw [upd_other _ _ eb] at he
        exact h.quot _ hb' _ he
    · intro b' hb'
      by_cases eb : b' = b
      · subst eb
        simp only [upd_same]; exact (h.plain _ hb).set hi
      · simp only [upd_other _ _ eb]; exact h.plain _ hb'
  case eraseAt =>
    intro s d cont b i hd h hb hi
    have hx := h.base.bkt b hb
    obtain ⟨s', e1, e2⟩ := L.eraseAt _ d cont b i hd h.base hb hi
    obtain ⟨d1, d2, d3, d4⟩ := h.dim
    have hkw1 : 1 ≤ kw := by have := hd.qw_pos; have := hd.qw_le; omega
    have hkw2 : kw ≤ 64 := by have := hd.kw_le; omega
    obtain ⟨pl, p1, p2⟩ := (h.plain b hb).erase hO.bytes hkw1 hkw2 hi
    obtain ⟨cap, hk, _, _⟩ := hx.rep (by intro e; rw [e] at hi; simp at hi)
    have hkl := hO.klen _ _ _ _ hk
    rw [List.length_map] at hkl
    have hlen : ((cont b).eraseIdx i).length = (cont b).length - 1 := by rw [List.length_eraseIdx, if_pos hi]
    have quot : ∀ b' < 2 ^ d.tb, ∀ e ∈ upd cont b ((cont b).eraseIdx i) b', e.1 < 2 ^ d.qw := by
      intro b' hb' e he
      by_cases eb : b' = b
      · subst eb
        rw [upd_same] at he
        exact h.quot _ hb _ (List.mem_of_mem_eraseIdx he)
      · rw [upd_other _ _ eb] at he
        exact h.quot _ hb' _ he
    have pre : ∀ r, (do
        ddcheck true (0 < (cont b).length)
        if (cont b).length = 1 then
          dbgStrat c.p s.base b
          return ⟨s', upd s.plain b none⟩
        else return ⟨s', upd s.plain b pl⟩ : Res (SepDbg KB VB)) = .ok r → c.ops.eraseAt s d b i = .ok r := by
      intro r hr
      simp only [SepDbgCfg.ops, ddcheck_ok (show b < s.base.n by rw [h.base.n]; exact hb), h.base.get hb, hx.size,
        ddcheck_ok hi, ddcheck_ok hkl, dbgWidth_ok hO hd h.dim, e1, d2, p1, ok_bind]
      exact hr
    by_cases h1 : (cont b).length = 1
    · refine ⟨⟨s', upd s.plain b none⟩, pre _ ?_, e2, h.dim, quot, ?_⟩
      · rw [ddcheck_ok (by omega), ok_bind, if_pos h1, dbgStrat_ok h.base hb]; rfl
      · intro b' hb'
        by_cases eb : b' = b
        · subst eb
          simp only [upd_same]
          intro hne
          exact absurd (List.eq_nil_of_length_eq_zero (by omega)) hne
        · simp only [upd_other _ _ eb]; exact h.plain _ hb'
    · refine ⟨⟨s', upd s.plain b pl⟩, pre _ ?_, e2, h.dim, quot, ?_⟩
      · rw [ddcheck_ok (by omega), ok_bind, if_neg h1]; rfl
      · intro b' hb'
        by_cases eb : b' = b
        · subst eb
          simp only [upd_same]; exact p2
        · simp only [upd_other _ _ eb]; exact h.plain _ hb'
  case shrink =>
    intro s d cont b hd h hb
    obtain ⟨s', e1, e2⟩ := L.shrink _ d cont b hd h.base hb
    refine ⟨{ s with base := s' }, ?_, e2, h.dim, h.quot, h.plain⟩
    simp only [SepDbgCfg.ops, dbgWidth_ok hO hd h.dim, h.base.get hb, dbgStrat_ok h.base hb, ite_self, e1, ok_bind, pure_eq_ok]

end SC
