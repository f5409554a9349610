import Verif.Table.Tab
import Verif.Table.Cont
/-!
# Invariant of the hash tables
-/
namespace SC

/-- parameters of the correctness argument -/
structure Par (S O : Type) where
  Rep : S → Dim → Cont → Prop
  RepO : O → Nat → List (Nat × Nat × Nat) → (Nat → Bool) → Prop
  /-- what remains of a value in a bucket -/
  norm : Nat → Nat → Nat
  /-- what remains of a value in the overflow table -/
  normO : Nat → Nat
  /-- number of entries after which a cluster of buckets counts as full -/
  maxE : Nat
  /-- number of buckets in a cluster -/
  cl : Nat
  /-- largest supported width of quotients -/
  W : Nat
  kw : Nat
  vw : Nat
  /-- the hash function works for `2^lo`, ..., `2^hi` buckets -/
  lo : Nat
  hi : Nat
  /-- the first insertion allocates `2^ini` buckets -/
  ini : Nat
  /-- a table with `2^grow` buckets or more is never enlarged -/
  grow : Nat
  /-- may `reserve(1)` be called? -/
  one : Bool := true

/-- What is demanded of an instantiated table class for keys of `P.kw` bits and values of `P.vw` bits. -/
structure Laws {S O : Type} (g : Cfg S O) (P : Par S O) : Prop where
  store : LawfulStore g.ops P.norm P.Rep P.maxE P.cl P.W (fun w v => P.normO v = P.norm w v)
    (fun d => d.qw = (g.hash P.kw).remainderWidth d.tb ∧ d.kw = P.kw ∧ d.vw = P.vw ∧ P.lo ≤ d.tb ∧ d.tb ≤ P.hi)
  ovf : LawfulOverflow g.ov P.normO P.RepO (fun v => P.normO v = P.norm P.vw v)
  fresh : g.stale g.noStore = false
  never : P.one = true → ∀ s, g.stale s = false
  kw_le : P.kw ≤ 64
  vw_pos : 1 ≤ P.vw
  vw_le : P.vw ≤ 64
  ibpg_pos : 1 ≤ g.initBpg
  ibpg_le : g.initBpg ≤ 64
  rbpg_pos : 1 ≤ g.rehashBpg
  rbpg_le : g.rehashBpg ≤ 64
  norm_idem : ∀ x, P.norm P.vw (P.norm P.vw x) = P.norm P.vw x
  normO_norm : ∀ x, P.normO (P.norm P.vw x) = P.norm P.vw x
  lo_pos : 1 ≤ P.lo
  hi_lt : P.hi < 64
  mapping : ∀ tb, P.lo ≤ tb → tb ≤ P.hi → LawfulMapping (g.hash P.kw) P.kw tb
  qw_le : ∀ tb, P.lo ≤ tb → tb ≤ P.hi →
    (g.hash P.kw).remainderWidth tb ≤ P.kw ∧ (g.hash P.kw).remainderWidth tb ≤ P.W
  init : reserveBits (min (P.kw - 1) g.initBuckets) = .ok P.ini ∧ P.lo ≤ P.ini ∧ P.ini ≤ P.hi
  grow_le : P.grow ≤ P.hi
  room : ∀ tb, P.lo ≤ tb → P.grow ≤ tb → tb ≤ P.hi → ∀ b (ks : List Nat), ks.Nodup →
    (∀ k ∈ ks, k < 2 ^ P.kw ∧ ∃ q, (g.hash P.kw).map k tb = .ok (q, b)) → P.cl * ks.length ≤ P.maxE

/-- The invariant of a table with buckets: `c` are the contents of the buckets, `o` of the overflow table. -/
structure Live {S O : Type} (g : Cfg S O) (P : Par S O) (t : Tab S O) (c : Cont) (o : List (Nat × Nat × Nat))
    (full : Nat → Bool) : Prop where
  tkw : t.kw = P.kw
  tvw : t.vw = P.vw
  bpg_pos : 1 ≤ t.bpg
  bpg_le : t.bpg ≤ 64
  lo : P.lo ≤ t.tb
  hi : t.tb ≤ P.hi
  rep : P.Rep t.store (t.dim g) c
  orep : P.RepO t.ovf (2 ^ t.tb) o full
  cok : COK (g.hash P.kw) P.kw t.tb c o
  ofull : ∀ e ∈ o, ∀ q b, (g.hash P.kw).map e.2.1 t.tb = .ok (q, b) → full b = true
  vals : ∀ b < 2 ^ t.tb, ∀ e ∈ c b, P.norm P.vw e.2 = e.2
  ovals : ∀ e ∈ o, P.norm P.vw e.2.2 = e.2.2
  elems : t.elems = (ents (g.hash P.kw) t.tb c o).length

/-- A table holds exactly the pairs `l` (in some order). -/
def Inv {S O : Type} (g : Cfg S O) (P : Par S O) (t : Tab S O) (l : List (Nat × Nat)) : Prop :=
  (t.kw = P.kw ∧ t.vw = P.vw ∧ 1 ≤ t.bpg ∧ t.bpg ≤ 64 ∧ t.tb = 0 ∧ t.elems = 0 ∧ l = [] ∧
    g.stale t.store = false ∧ ∃ n full, P.RepO t.ovf n [] full) ∨
  (∃ c o full, Live g P t c o full ∧ l.Perm (ents (g.hash P.kw) t.tb c o))

/-- A navigator of a table with buckets refers to the pair `(k, v)`. -/
def Loc {S O : Type} (g : Cfg S O) (P : Par S O) (t : Tab S O) (c : Cont) (o : List (Nat × Nat × Nat)) (n : Nav)
    (k v : Nat) : Prop :=
  (∃ q b i, ∃ h : i < (c b).length, n = ⟨b, i⟩ ∧ b < 2 ^ t.tb ∧ (g.hash P.kw).map k t.tb = .ok (q, b) ∧
    (c b)[i] = (q, v) ∧ k < 2 ^ P.kw) ∨
  (∃ p, n = ⟨2 ^ t.tb, p⟩ ∧ (p, k, v) ∈ o)

variable {S O : Type} {g : Cfg S O} {P : Par S O}

/-! ## rounding of `reserve` -/

theorem reserveBits_eq {n r : Nat} (h1 : 1 ≤ n) (h2 : n ≤ 2 ^ r) (h3 : 2 ^ r < 2 * n) (h4 : r < 64) :
    reserveBits n = .ok r := by
  have hm1 : 2 ^ Nat.log2 n ≤ n := Nat.log2_self_le (by omega)
  have hm2 : n < 2 ^ (Nat.log2 n + 1) := Nat.lt_log2_self
  have hle : Nat.log2 n ≤ r := by
    have : 2 ^ Nat.log2 n ≤ 2 ^ r := Nat.le_trans hm1 h2
    exact (Nat.pow_le_pow_iff_right (by omega)).mp this
  have hge : r ≤ Nat.log2 n + 1 := by
    have : 2 ^ r < 2 ^ (Nat.log2 n + 1 + 1) := by rw [Nat.pow_succ _ (Nat.log2 n + 1)]; omega
    have := (Nat.pow_lt_pow_iff_right (a := 2) (by omega)).mp this
    omega
  have e0 : (mostSignificantBit n % 256).toNat = Nat.log2 n := by
    unfold mostSignificantBit; rw [if_neg (by omega)]; omega
  have es : ∀ x, x < 64 → (1 <<< x) % W64 = 2 ^ x := fun x hx => by
    rw [Nat.shiftLeft_eq, Nat.one_mul]; exact Nat.mod_eq_of_lt (Nat.pow_lt_pow_right (by omega) hx)
  unfold reserveBits
  simp only [e0, shl64, if_pos (show Nat.log2 n < 64 by omega), es _ (show Nat.log2 n < 64 by omega), ok_bind]
  by_cases h : 2 ^ Nat.log2 n = n
  · have : r = Nat.log2 n := by
      have : 2 ^ r < 2 ^ (Nat.log2 n + 1) := by rw [Nat.pow_succ]; omega
      have := (Nat.pow_lt_pow_iff_right (a := 2) (by omega)).mp this
      omega
    subst this
    simp [h, h4]
  · have : r = Nat.log2 n + 1 := by
      have : Nat.log2 n ≠ r := by
        intro e; rw [← e] at h2; omega
      omega
    subst this
    have e2 : (Nat.log2 n + 1) % 256 = Nat.log2 n + 1 := Nat.mod_eq_of_lt (by omega)
    simp only [ne_eq, h, not_false_eq_true, if_true, e2, h4, ok_bind, pure_eq_ok]

theorem reserveBits_pow {b : Nat} (h : b < 64) : reserveBits (2 ^ b) = .ok b := by
  have := Nat.two_pow_pos b
  exact reserveBits_eq (by omega) (Nat.le_refl _) (by omega) h

/-! ## basic consequences of the invariant -/

theorem Live.hash {t : Tab S O} {c : Cont} {o : List (Nat × Nat × Nat)} {full : Nat → Bool} (h : Live g P t c o full) :
    t.hash g = g.hash P.kw := by unfold Tab.hash; rw [h.tkw]

theorem Live.tb_pos {t : Tab S O} {c : Cont} {o : List (Nat × Nat × Nat)} {full : Nat → Bool}
    (L : Laws g P) (h : Live g P t c o full) : 1 ≤ t.tb := Nat.le_trans L.lo_pos h.lo

theorem Live.map_ok {t : Tab S O} {c : Cont} {o : List (Nat × Nat × Nat)} {full : Nat → Bool}
    (L : Laws g P) (h : Live g P t c o full) : LawfulMapping (g.hash P.kw) P.kw t.tb := L.mapping _ h.lo h.hi

theorem Live.good {t : Tab S O} {c : Cont} {o : List (Nat × Nat × Nat)} {full : Nat → Bool}
    (L : Laws g P) (h : Live g P t c o full) : GoodDim P.W (t.dim g) where
  qw_le_W := by
    show (t.hash g).remainderWidth t.tb ≤ P.W
    rw [h.hash]; exact (L.qw_le _ h.lo h.hi).2
  tb_pos := h.tb_pos L
  tb_lt := Nat.lt_of_le_of_lt h.hi L.hi_lt
  qw_pos := by
    show 1 ≤ (t.hash g).remainderWidth t.tb
    rw [h.hash]; exact (h.map_ok L).width_pos
  qw_le := by
    show (t.hash g).remainderWidth t.tb ≤ t.kw
    rw [h.hash, h.tkw]; exact (L.qw_le _ h.lo h.hi).1
  kw_le := by show t.kw ≤ 64; rw [h.tkw]; exact L.kw_le
  vw_pos := by show 1 ≤ t.vw; rw [h.tvw]; exact L.vw_pos
  vw_le := by show t.vw ≤ 64; rw [h.tvw]; exact L.vw_le
  bpg_pos := h.bpg_pos
  bpg_le := h.bpg_le

theorem Live.bc {t : Tab S O} {c : Cont} {o : List (Nat × Nat × Nat)} {full : Nat → Bool}
    (L : Laws g P) (h : Live g P t c o full) : t.bucketCount = 2 ^ t.tb := by
  have := h.tb_pos L
  unfold Tab.bucketCount; rw [if_neg (by omega)]

theorem Inv.perm {t : Tab S O} {l l' : List (Nat × Nat)} (h : Inv g P t l) (hp : l'.Perm l) : Inv g P t l' := by
  rcases h with ⟨h1, h2, h3, h4, h5, h6, rfl, h7⟩ | ⟨c, o, full, hl, hp'⟩
  · exact .inl ⟨h1, h2, h3, h4, h5, h6, hp.eq_nil, h7⟩
  · exact .inr ⟨c, o, full, hl, hp.trans hp'⟩

theorem Inv.nodup {t : Tab S O} {l : List (Nat × Nat)} (L : Laws g P) (h : Inv g P t l) :
    (l.map Prod.fst).Nodup := by
  rcases h with ⟨_, _, _, _, _, _, rfl, _⟩ | ⟨c, o, full, hl, hp⟩
  · simp
  · rw [(hp.map Prod.fst).nodup_iff]; exact ents_nodup (hl.map_ok L) hl.cok

theorem Inv.size {t : Tab S O} {l : List (Nat × Nat)} (h : Inv g P t l) : t.elems = l.length := by
  rcases h with ⟨_, _, _, _, _, h, rfl, _⟩ | ⟨c, o, full, hl, hp⟩
  · simpa using h
  · rw [hl.elems]; exact hp.length_eq.symm

theorem Inv.key_lt {t : Tab S O} {l : List (Nat × Nat)} (L : Laws g P) (h : Inv g P t l) {e : Nat × Nat} (he : e ∈ l) :
    e.1 < 2 ^ P.kw := by
  rcases h with ⟨_, _, _, _, _, _, rfl, _⟩ | ⟨c, o, full, hl, hp⟩
  · simp at he
  · exact key_lt_of_mem (v := e.2) (hl.map_ok L) hl.cok (hp.mem_iff.mp he)

theorem Inv.val_norm {t : Tab S O} {l : List (Nat × Nat)} (h : Inv g P t l) {e : Nat × Nat} (he : e ∈ l) :
    P.norm P.vw e.2 = e.2 := by
  rcases h with ⟨_, _, _, _, _, _, rfl, _⟩ | ⟨c, o, full, hl, hp⟩
  · simp at he
  · have := hp.mem_iff.mp he
    simp only [ents, List.mem_append, mem_stored, List.mem_map] at this
    rcases this with ⟨b, hb, e', he', rfl⟩ | ⟨e', he', rfl⟩
    · exact hl.vals b hb e' he'
    · exact hl.ovals e' he'

theorem posOf_cases {α : Type} {xs : List (Nat × α)} {x : Nat} :
    (x ∉ xs.map Prod.fst ∧ posOf (xs.map Prod.fst) x = NPOS) ∨
    (∃ i, ∃ h : i < xs.length, posOf (xs.map Prod.fst) x = i ∧ xs[i].1 = x) := by
  unfold posOf
  by_cases h : x ∈ xs.map Prod.fst
  · right
    rw [if_pos h]
    have hi := List.idxOf_lt_length_of_mem h
    refine ⟨(xs.map Prod.fst).idxOf x, by simpa using hi, rfl, ?_⟩
    have := List.getElem_idxOf hi
    rw [List.getElem_map] at this
    exact this
  · left; exact ⟨h, by rw [if_neg h]⟩

/-- what `locate` finds -/
theorem Live.locate {t : Tab S O} {c : Cont} {o : List (Nat × Nat × Nat)} {full : Nat → Bool}
    (L : Laws g P) (h : Live g P t c o full) {k q b : Nat} (hk : k < 2 ^ P.kw)
    (hm : (g.hash P.kw).map k t.tb = .ok (q, b)) :
    ∃ pos, g.ops.locate t.store (t.dim g) b q = .ok pos ∧
      ((pos = NPOS ∧ q ∉ (c b).map Prod.fst) ∨
       (pos ≠ NPOS ∧ ∃ v, Loc g P t c o ⟨b, pos⟩ k v)) := by
  obtain ⟨_, hb, hq, _⟩ := invKey_of_map (h.map_ok L) hk hm
  have hq' : q < 2 ^ (t.dim g).qw := by
    show q < 2 ^ (t.hash g).remainderWidth t.tb
    rw [h.hash]; exact hq
  refine ⟨_, L.store.locate _ _ _ _ _ (h.good L) h.rep hb hq', ?_⟩
  rcases posOf_cases (xs := c b) (x := q) with ⟨h1, h2⟩ | ⟨i, hi, h1, h2⟩
  · left; exact ⟨h2, h1⟩
  · right
    rw [h1]
    have := L.store.len _ _ _ _ (h.good L) h.rep hb
    refine ⟨by omega, (c b)[i].2, .inl ⟨q, b, i, hi, rfl, hb, hm, ?_, hk⟩⟩
    rw [← h2]

theorem Live.loc_mem {t : Tab S O} {c : Cont} {o : List (Nat × Nat × Nat)} {full : Nat → Bool}
    (L : Laws g P) (h : Live g P t c o full) {n : Nav} {k v : Nat} (hl : Loc g P t c o n k v) :
    (k, v) ∈ ents (g.hash P.kw) t.tb c o ∧ k < 2 ^ P.kw := by
  rcases hl with ⟨q, b, i, hi, rfl, hb, hm, he, hk⟩ | ⟨p, rfl, hp⟩
  · refine ⟨(mem_ents (h.map_ok L) h.cok hk hm).mpr (.inl ?_), hk⟩
    rw [← he]; exact List.getElem_mem hi
  · exact ⟨List.mem_append.mpr (.inr (List.mem_map.mpr ⟨_, hp, rfl⟩)), (h.cok.osrc _ hp).1⟩

theorem Live.mapk {t : Tab S O} {c : Cont} {o : List (Nat × Nat × Nat)} {full : Nat → Bool}
    (L : Laws g P) (h : Live g P t c o full) {k : Nat} (hk : k < 2 ^ P.kw) :
    ∃ q b, (g.hash P.kw).map k t.tb = .ok (q, b) ∧ b < 2 ^ t.tb := by
  obtain ⟨q, b, h1, h2, _⟩ := (h.map_ok L).map_ok k hk
  exact ⟨q, b, h1, h2⟩

/-- not stored, neither in its bucket nor in the overflow table -/
theorem Live.not_mem {t : Tab S O} {c : Cont} {o : List (Nat × Nat × Nat)} {full : Nat → Bool}
    (L : Laws g P) (h : Live g P t c o full) {k q b : Nat} (hk : k < 2 ^ P.kw)
    (hm : (g.hash P.kw).map k t.tb = .ok (q, b)) :
    k ∉ (ents (g.hash P.kw) t.tb c o).map Prod.fst ↔ (q ∉ (c b).map Prod.fst ∧ ∀ e ∈ o, e.2.1 ≠ k) := by
  constructor
  · intro hn
    constructor
    · intro hq
      obtain ⟨e, he, rfl⟩ := List.mem_map.mp hq
      exact hn (List.mem_map.mpr ⟨(k, e.2), (mem_ents (h.map_ok L) h.cok hk hm).mpr (.inl he), rfl⟩)
    · rintro e he rfl
      exact hn (List.mem_map.mpr ⟨(e.2.1, e.2.2), (mem_ents (h.map_ok L) h.cok hk hm).mpr (.inr ⟨e.1, he⟩), rfl⟩)
  · rintro ⟨h1, h2⟩ hn
    obtain ⟨⟨k', v⟩, he, rfl⟩ := List.mem_map.mp hn
    rcases (mem_ents (h.map_ok L) h.cok hk hm).mp he with h3 | ⟨p, h3⟩
    · exact h1 (List.mem_map.mpr ⟨_, h3, rfl⟩)
    · exact h2 _ h3 rfl

/-- what consulting the overflow table gives -/
theorem Live.ofind {t : Tab S O} {c : Cont} {o : List (Nat × Nat × Nat)} {full : Nat → Bool}
    (L : Laws g P) (h : Live g P t c o full) (k : Nat) :
    ∃ p, g.ov.find t.ovf k = .ok p ∧
      ((p = NPOS ∧ ∀ e ∈ o, e.2.1 ≠ k) ∨ (p ≠ NPOS ∧ ∃ v, (p, k, v) ∈ o)) := by
  by_cases hk : ∃ e ∈ o, e.2.1 = k
  · obtain ⟨e, he, rfl⟩ := hk
    refine ⟨e.1, L.ovf.find_in _ _ _ _ _ h.orep he, .inr ⟨?_, e.2.2, he⟩⟩
    have := L.ovf.pos _ _ _ _ _ h.orep he
    omega
  · have hk' : ∀ e ∈ o, e.2.1 ≠ k := fun e he h => hk ⟨e, he, h⟩
    exact ⟨NPOS, L.ovf.find_out _ _ _ _ _ h.orep hk', .inl ⟨rfl, hk'⟩⟩

/-! ## reading through a navigator -/

theorem Live.osize {t : Tab S O} {c : Cont} {o : List (Nat × Nat × Nat)} {full : Nat → Bool}
    (L : Laws g P) (h : Live g P t c o full) : g.ov.size t.ovf = o.length := L.ovf.size _ _ _ _ h.orep

theorem walk_valid {ov : OverflowOps O} {x : O} : ∀ {i : Nat} {l : List (Nat × Nat × Nat)}, OvWalk ov x i l →
    ∀ e ∈ l, ov.validPosition x e.1 = true := by
  intro i l
  induction l generalizing i with
  | nil => intro _ e he; simp at he
  | cons a l ih =>
    intro h e he
    rcases List.mem_cons.mp he with rfl | he
    · rw [← h.1]; exact h.2.1
    · exact ih h.2.2 e he

theorem Live.checkQw {t : Tab S O} {c : Cont} {o : List (Nat × Nat × Nat)} {full : Nat → Bool} (L : Laws g P)
    (h : Live g P t c o full) {on : Bool} : ddcheck on (0 < (t.dim g).qw ∧ (t.dim g).qw ≤ t.kw) = .ok () :=
  ddcheck_ok ⟨(h.good L).qw_pos, (h.good L).qw_le⟩

/-- the assertion after `m_hash.map` -/
theorem Live.checkMap {t : Tab S O} {c : Cont} {o : List (Nat × Nat × Nat)} {full : Nat → Bool} (L : Laws g P)
    (h : Live g P t c o full) {k q b : Nat} (hk : k < 2 ^ P.kw) (hm : (g.hash P.kw).map k t.tb = .ok (q, b)) :
    t.checkMap g k q b = .ok () :=
  checkMap_ok (by rw [h.tkw]; exact (invKey_of_map (h.map_ok L) hk hm).2.2.2)

theorem Live.loc_read {t : Tab S O} {c : Cont} {o : List (Nat × Nat × Nat)} {full : Nat → Bool}
    (L : Laws g P) (h : Live g P t c o full) {n : Nav} {k v : Nat} (hl : Loc g P t c o n k v) :
    t.keyAt g n = .ok k ∧ t.valueAt g n = .ok v ∧ t.invalid g n = .ok false := by
  rcases hl with ⟨q, b, i, hi, rfl, hb, hm, he, hk⟩ | ⟨p, rfl, hp⟩
  · have h1 := L.store.quotientAt _ _ _ _ _ (h.good L) h.rep hb hi
    have h2 := L.store.valueAt _ _ _ _ _ (h.good L) h.rep hb hi
    have h3 := L.store.size _ _ _ _ (h.good L) h.rep hb
    have hinv := (invKey_of_map (h.map_ok L) hk hm).2.2.2
    have hbn : ¬ b = 2 ^ t.tb := by omega
    rw [he] at h1 h2
    have hv : t.invalid g ⟨b, i⟩ = .ok false := by
      simp only [Tab.invalid, h.bc L, hbn, false_and, and_false, if_false, if_neg (show ¬ 2 ^ t.tb ≤ b by omega), h3,
        ok_bind, pure_eq_ok]
      simp; omega
    refine ⟨?_, ?_, hv⟩
    · simp only [Tab.keyAt, checkValid_ok hv, h.checkQw L, h.bc L, hbn, and_false, if_false, h1, ok_bind, h.hash]
      exact hinv
    · simp only [Tab.valueAt, checkValid_ok hv, h.bc L, hbn, and_false, if_false, h2, ddcheck_ok hb, ok_bind]
  · have hs : 0 < g.ov.size t.ovf := by rw [h.osize L]; exact List.length_pos_of_mem hp
    have h1 := L.ovf.key _ _ _ _ _ h.orep hp
    have h2 := L.ovf.read _ _ _ _ _ h.orep hp
    have h3 := walk_valid (L.ovf.walk _ _ _ _ h.orep) _ hp
    have hv : t.invalid g ⟨2 ^ t.tb, p⟩ = .ok false := by
      simp only [Tab.invalid, h.bc L, hs, true_and]
      rw [if_pos h3]
    refine ⟨?_, ?_, hv⟩
    · simp only [Tab.keyAt, checkValid_ok hv, h.checkQw L, ok_bind, h.bc L, hs, and_self, if_true]; exact h1
    · simp only [Tab.valueAt, checkValid_ok hv, ok_bind, h.bc L, hs, and_self, if_true]; exact h2

end SC
