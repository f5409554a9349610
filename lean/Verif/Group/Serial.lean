import Verif.Group.Walk
import Verif.Sep.Serial
/-!
# `serialize` and `deserialize` of `keyvalue_group` and `group_chaining_table`, grp:386-431 and 1420-1509

Only with `dummy_overflow`, whose `serialize` and `deserialize` do nothing (overflow.hpp:32-35).
-/
namespace SC

/-- `os.write(m_border, ...)`, grp:402: `n` words from word `i` on -/
def Border.write (b : Border) : Nat → Nat → Res (List Nat)
  | _, 0 => .ok []
  | i, n + 1 => do
    let x ← b.get i
    let r ← b.write (i + 1) n
    return toBytes 8 x ++ r

/-- `is.read(m_border, ...)`, grp:427: `n` words from word `i` on -/
def borderRead : Nat → Nat → (Nat → Nat) → List Nat → Res ((Nat → Nat) × List Nat)
  | _, 0, w, is => .ok (w, is)
  | i, n + 1, w, is => do
    let (x, is) ← takeBytes 8 is
    borderRead (i + 1) n (upd w i (ofBytes x)) is

/-- `serialize(os, buckets_per_group, keywidth, valuewidth)` of a group, grp:386-406.  `m_size` has four bytes. -/
def Group.serialize (x : Group) (bpg qw vw : Nat) : Res (List Nat) := do
  if x.size = 0 then return toBytes 4 x.size
  let b ← x.getBorder
  let bs ← b.write 0 (ceilDiv (x.size + 1 + bpg) 64)
  let ks ← coreSerialize x.keys qw x.size
  let vs ← coreSerialize x.vals vw x.size
  return toBytes 4 x.size ++ bs ++ ks ++ vs

/-- `deserialize(is, buckets_per_group, keywidth, valuewidth)` of a group, grp:409-431; it starts with `clear()`, so that the previous
state does not matter -/
def Group.deserialize (c : GrpCfg) (bpg qw vw : Nat) (is : List Nat) : Res (Group × List Nat) := do
  let (sz, is) ← takeBytes 4 is
  let size := ofBytes sz
  if size = 0 then return ({ Group.none with size := size }, is)
  let n := ceilDiv (size + 1 + bpg) 64
  let (w, is) ← borderRead 0 n (junkWord c) is
  let (ks, is) ← coreDeserialize c qw size is
  let (vs, is) ← coreDeserialize c vw size is
  return ({ size := size, keys := ks, vals := vs, border := some ⟨n, w⟩ }, is)

/-- the loop over the groups in `serialize`, grp:1431-1433, from group `j` on -/
def grpSerGroups (s : GrpStore) (d : Dim) : Nat → Nat → Res (List Nat)
  | _, 0 => .ok []
  | j, n + 1 => do
    let x ← s.get j
    let bs ← x.serialize d.bpg d.qw d.vw
    let r ← grpSerGroups s d (j + 1) n
    return bs ++ r

/-- the loop over the groups in `deserialize`, grp:1469-1471, from group `j` on -/
def grpDeserGroups (c : GrpCfg) (d : Dim) : Nat → Nat → GrpStore → List Nat → Res (GrpStore × List Nat)
  | _, 0, s, is => .ok (s, is)
  | j, n + 1, s, is => do
    let _ ← s.get j
    let (x, is) ← Group.deserialize c d.bpg d.qw d.vw is
    grpDeserGroups c d (j + 1) n (s.set j x) is

/-- `serialize(os)`, grp:1420-1446: the bytes that are written.  `m_key_width`, `m_value_width`, `m_buckets` and `m_buckets_per_group` have
one byte, `m_elements` has eight. -/
def grpSerialize (c : GrpCfg) (hk : HashKind) (t : Tab GrpStore Unit) : Res (List Nat) := do
  let head := toBytes 1 t.kw ++ toBytes 1 t.vw ++ toBytes 1 t.tb ++ toBytes 8 t.elems ++ toBytes 1 t.bpg
  if t.elems = 0 then return head
  let r ← grpSerGroups t.store (t.dim (grpMap c hk)) 0 (grpCount t)
  return head ++ r

/-- `deserialize(is)`, grp:1449-1509: new state and the bytes that have not been read -/
def grpDeserialize (c : GrpCfg) (hk : HashKind) (t : Tab GrpStore Unit) (is : List Nat) :
    Res (Tab GrpStore Unit × List Nat) := do
  let t := t.clear (grpMap c hk)
  let (kw, is) ← takeBytes 1 is
  let (vw, is) ← takeBytes 1 is
  let (tb, is) ← takeBytes 1 is
  let (el, is) ← takeBytes 8 is
  let (bpg, is) ← takeBytes 1 is
  let t := { t with kw := ofBytes kw, vw := ofBytes vw, elems := ofBytes el, bpg := ofBytes bpg }
  if t.elems = 0 then return (t, is)
  let n ← shl64 1 (ofBytes tb)
  let t ← t.reserve (grpMap c hk) n
  let (s, is) ← grpDeserGroups c (t.dim (grpMap c hk)) 0 (grpCount t) t.store is
  return ({ t with store := s }, is)

/-! ## Round trip of a group -/

theorem Border.write_ok {b : Border} (hw : ∀ i < b.len, b.w i < 2 ^ 64) : ∀ n i, i + n ≤ b.len →
    ∃ bytes, b.write i n = .ok bytes ∧ ∀ w rest, ∃ w', borderRead i n w (bytes ++ rest) = .ok (w', rest) ∧
      (∀ j, i ≤ j → j < i + n → w' j = b.w j) ∧ ∀ j, j < i → w' j = w j := by
  intro n
  induction n with
  | zero =>
    intro i _
    exact ⟨[], rfl, fun w rest => ⟨w, rfl, fun j h1 h2 => absurd h2 (by omega), fun _ _ => rfl⟩⟩
  | succ n ih =>
    intro i hi
    obtain ⟨bytes, e1, e2⟩ := ih (i + 1) (by omega)
    refine ⟨toBytes 8 (b.w i) ++ bytes, by simp only [Border.write, Border.get_ok (show i < b.len by omega), ok_bind, e1, pure_eq_ok], ?_⟩
    intro w rest
    obtain ⟨w', f1, f2, f3⟩ := e2 (upd w i (b.w i)) rest
    refine ⟨w', ?_, ?_, ?_⟩
    · rw [List.append_assoc, borderRead, takeBytes_append _ _ (toBytes_length _ _), ok_bind]
      simp only [ofBytes8 (hw i (by omega))]
      exact f1
    · intro j h1 h2
      by_cases he : j = i
      · rw [f3 j (by omega), he, upd_same]
      · exact f2 j (by omega) (by omega)
    · intro j hj
      rw [f3 j (by omega), upd_other _ _ (by omega)]

theorem BorderRep.congr {b b' : Border} {bpg size : Nat} {lens : Nat → Nat} (h : BorderRep b bpg size lens) (hl : b'.len = b.len)
    (hw : ∀ i < b.len, b'.w i = b.w i) : BorderRep b' bpg size lens where
  total := h.total
  out := h.out
  len := by rw [hl, h.len]
  word := by intro i hi; rw [hl] at hi; rw [hw i hi]; exact h.word i hi
  sel := by
    intro g hg
    obtain ⟨h1, h2⟩ := h.sel g hg
    have hp : pre lens (g + 1) + g < 64 * b.len := by
      have e1 := pre_mono lens (show g + 1 ≤ bpg + 1 by omega)
      have e2 : pre lens (bpg + 1) = size := by rw [pre, h.out bpg (Nat.le_refl _), h.total]; rfl
      have e3 := ceilDiv_mul_ge (size + 1 + bpg) (show 0 < 64 by omega)
      rw [← h.len] at e3
      omega
    have hb : ∀ i, i ≤ pre lens (g + 1) + g → b'.bit i = b.bit i := by
      intro i hi
      unfold Border.bit
      rw [hw _ (by omega)]
    exact ⟨by rw [hb _ (Nat.le_refl _)]; exact h1, (rank_congr (fun i hi => hb i (Nat.le_of_lt hi))).trans h2⟩

theorem core_ser {c : GrpCfg} {sp : Bool} {b : VarB} {w : Nat} {xs : List Nat} (h : CoreRep sp b w xs) :
    ∃ bytes, coreSerialize b w xs.length = .ok bytes ∧ ∀ rest, ∃ b', coreDeserialize c w xs.length (bytes ++ rest) = .ok (b', rest) ∧
      CoreRep false b' w xs := by
  obtain ⟨m, rfl, hd, h1, _, h2⟩ := h
  have hge := ceilDiv_mul_ge (w * xs.length) (show 0 < 64 by omega)
  have hal : 64 * ceilDiv (w * xs.length) 64 ≤ m.alloc := by
    obtain ⟨k, hk⟩ := hd
    rw [hk] at h1 ⊢
    have : ceilDiv (w * xs.length) 64 ≤ k := by
      unfold ceilDiv; rw [Nat.mul_comm w]; omega
    omega
  refine ⟨memBytes m.bits (8 * ceilDiv (w * xs.length) 64), ?_, ?_⟩
  · simp only [coreSerialize, deref, ok_bind, guardB, pure_eq_ok]
    rw [if_neg (by simp; omega)]
    rfl
  · intro rest
    refine ⟨_, by simp only [coreDeserialize, takeBytes_append _ _ (memBytes_length _ _), ok_bind, pure_eq_ok]; rfl, _, rfl,
      Nat.dvd_mul_right _ _, by rw [Nat.mul_comm w] at hge ⊢; show _ ≤ 64 * ceilDiv _ 64; omega, by simp, ?_⟩
    intro i hi
    rw [← h2 i hi]
    apply readBits_congr
    intro j hj
    apply bytesMem_memBytes
    have : i * w + w ≤ xs.length * w := by
      rw [← Nat.succ_mul]; exact Nat.mul_le_mul_right _ hi
    rw [Nat.mul_comm w] at hge
    rw [Nat.mul_comm w]
    omega

theorem ofBytes4 {x : Nat} (h : x < 2 ^ 32) : ofBytes (toBytes 4 x) = x := by
  rw [ofBytes_toBytes]; exact Nat.mod_eq_of_lt (by simpa using h)

variable {c : GrpCfg} {sp : Bool} {hk : HashKind} {kw vw : Nat}

/-- Reading the bytes of a group gives a group with the same contents. -/
theorem SlotRep.ser {x : Group} {bpg qw vw : Nat} {cs : Cont} (h : SlotRep sp x bpg qw vw cs) (hout : ∀ g, bpg ≤ g → cs g = []) :
    ∃ bytes, x.serialize bpg qw vw = .ok bytes ∧ ∀ rest, ∃ y, Group.deserialize c bpg qw vw (bytes ++ rest) = .ok (y, rest) ∧
      SlotRep false y bpg qw vw cs := by
  by_cases h0 : x.size = 0
  · refine ⟨toBytes 4 0, by simp only [Group.serialize, h0, if_true, pure_eq_ok], fun rest => ⟨Group.none, ?_, .inl ⟨rfl, ?_⟩⟩⟩
    · simp only [Group.deserialize, takeBytes_append _ _ (toBytes_length _ _), ok_bind, ofBytes4 (show 0 < 2 ^ 32 by omega), if_true,
        pure_eq_ok]
      rfl
    · intro g
      by_cases hg : g < bpg
      · exact h.empty h0 hg
      · exact hout g (by omega)
  · rcases h with ⟨rfl, _⟩ | ⟨h, hle⟩
    · exact absurd rfl h0
    · obtain ⟨b, hb, hB⟩ := h.border
      obtain ⟨bs, e1, e2⟩ := Border.write_ok hB.word b.len 0 (by omega)
      obtain ⟨ks, k1, k2⟩ := core_ser (c := c) h.keys
      obtain ⟨vs, v1, v2⟩ := core_ser (c := c) h.vals
      rw [List.length_map] at k1 k2 v1 v2
      have hsz := h.size
      have hn : ceilDiv (x.size + 1 + bpg) 64 = b.len := by rw [hB.len, hsz]
      refine ⟨toBytes 4 x.size ++ bs ++ ks ++ vs, ?_, ?_⟩
      · simp only [Group.serialize, if_neg h0, Group.getBorder, hb, ok_bind, hn, e1]
        rw [hsz, k1, ok_bind, v1]
        rfl
      · intro rest
        obtain ⟨w', f1, f2, _⟩ := e2 (junkWord c) (ks ++ (vs ++ rest))
        obtain ⟨kb, g1, g2⟩ := k2 (vs ++ rest)
        obtain ⟨vb, g3, g4⟩ := v2 rest
        refine ⟨{ size := x.size, keys := kb, vals := vb, border := some ⟨b.len, w'⟩ }, ?_, .inr ⟨?_, hle⟩⟩
        · rw [show toBytes 4 x.size ++ bs ++ ks ++ vs ++ rest = toBytes 4 x.size ++ (bs ++ (ks ++ (vs ++ rest))) by
            simp only [List.append_assoc]]
          simp only [Group.deserialize, takeBytes_append _ _ (toBytes_length _ _), ok_bind,
            ofBytes4 (show x.size < 2 ^ 32 by rw [hsz]; exact h.lt), if_neg h0, hn, f1]
          rw [hsz, g1]
          simp only [ok_bind, g3, pure_eq_ok]
        · exact ⟨hsz, h.lt, h.out, g2, g4, _, rfl, hB.congr rfl (fun i hi => f2 i (by omega) (by omega))⟩

/-! ## Round trip of the table -/

theorem local_out (bpg : Nat) (cont : Cont) (j : Nat) : ∀ g, bpg ≤ g → localCont bpg cont j g = [] := by
  intro g hg
  unfold localCont
  rw [if_neg (by omega)]

theorem grpSerGroups_ok {s : GrpStore} {d : Dim} {cont : Cont}
    (h : ∀ j < s.n, SlotRep sp (s.grp j) d.bpg d.qw d.vw (localCont d.bpg cont j)) : ∀ n j, j + n ≤ s.n →
    ∃ bytes, grpSerGroups s d j n = .ok bytes ∧ ∀ (s0 : GrpStore) rest, s0.n = s.n →
      ∃ s1, grpDeserGroups c d j n s0 (bytes ++ rest) = .ok (s1, rest) ∧ s1.n = s.n ∧
        (∀ i, j ≤ i → i < j + n → SlotRep false (s1.grp i) d.bpg d.qw d.vw (localCont d.bpg cont i)) ∧
        ∀ i, i < j → s1.grp i = s0.grp i := by
  intro n
  induction n with
  | zero =>
    intro j _
    exact ⟨[], rfl, fun s0 rest h0 => ⟨s0, rfl, h0, fun i h1 h2 => absurd h2 (by omega), fun _ _ => rfl⟩⟩
  | succ n ih =>
    intro j hj
    obtain ⟨bytes, e1, e2⟩ := ih (j + 1) (by omega)
    obtain ⟨bs, f1, f2⟩ := (h j (by omega)).ser (c := c) (local_out _ _ _)
    have hlt : j < s.n := by omega
    refine ⟨bs ++ bytes, by simp only [grpSerGroups, GrpStore.get, if_pos hlt, ok_bind, f1, e1, pure_eq_ok], ?_⟩
    intro s0 rest hs0
    obtain ⟨y, g1, g2⟩ := f2 (bytes ++ rest)
    obtain ⟨s1, r1, r2, r3, r4⟩ := e2 (s0.set j y) rest hs0
    refine ⟨s1, ?_, r2, ?_, ?_⟩
    · have hlt0 : j < s0.n := by omega
      rw [List.append_assoc]
      simp only [grpDeserGroups, GrpStore.get, if_pos hlt0, ok_bind, g1]
      exact r1
    · intro i h1 h2
      by_cases he : i = j
      · rw [r4 i (by omega), he]
        show SlotRep false (upd s0.grp j y j) _ _ _ _
        rw [upd_same]; exact g2
      · exact r3 i (by omega) (by omega)
    · intro i hi
      rw [r4 i (by omega)]
      exact upd_other _ _ (by omega)

theorem reserveEmpty_elems {S O : Type} (g : Cfg S O) (t t1 : Tab S O) (n el : Nat) (h : t.reserveEmpty g n = .ok t1) :
    Tab.reserveEmpty g { t with elems := el } n = .ok { t1 with elems := el } := by
  unfold Tab.reserveEmpty at h ⊢
  cases h1 : reserveBits n with
  | error e => rw [h1] at h; cases h
  | ok b =>
    rw [h1] at h
    simp only [ok_bind] at h ⊢
    have e1 : Tab.dim g { t with elems := el, tb := b } = Tab.dim g { t with tb := b } := rfl
    rw [e1]
    cases h0 : ddcheck g.debug (g.stale t.store = false) with
    | error e => rw [h0] at h; cases h
    | ok _ =>
    rw [h0] at h
    simp only [ok_bind] at h ⊢
    cases h2 : g.ops.alloc (Tab.dim g { t with tb := b }) with
    | error e => rw [h2] at h; cases h
    | ok s =>
      rw [h2] at h
      simp only [ok_bind] at h ⊢
      cases h3 : g.ov.resizeBuckets t.ovf (2 ^ b) with
      | error e => rw [h3] at h; cases h
      | ok o =>
        rw [h3] at h
        cases h
        rfl

theorem grpDeser_eq {t0 t1 : Tab GrpStore Unit} {s1 : GrpStore} {tb el bpg : Nat} {r rest : List Nat}
    (h1 : kw < 256) (h2 : vw < 256) (h3 : tb < 64) (h4 : el < 2 ^ 64) (h5 : bpg < 256) (h0 : el ≠ 0)
    (h6 : Tab.reserve (grpMap c hk) { t0.clear (grpMap c hk) with kw := kw, vw := vw, elems := el, bpg := bpg } (2 ^ tb) = .ok t1)
    (h7 : grpDeserGroups c (t1.dim (grpMap c hk)) 0 (grpCount t1) t1.store (r ++ rest) = .ok (s1, rest)) :
    grpDeserialize c hk t0 (toBytes 1 kw ++ toBytes 1 vw ++ toBytes 1 tb ++ toBytes 8 el ++ toBytes 1 bpg ++ r ++ rest) =
      .ok ({ t1 with store := s1 }, rest) := by
  have a : toBytes 1 kw ++ toBytes 1 vw ++ toBytes 1 tb ++ toBytes 8 el ++ toBytes 1 bpg ++ r ++ rest =
      toBytes 1 kw ++ (toBytes 1 vw ++ (toBytes 1 tb ++ (toBytes 8 el ++ (toBytes 1 bpg ++ (r ++ rest))))) := by
    simp only [List.append_assoc]
  have e1 : shl64 1 tb = .ok (2 ^ tb) := by
    unfold shl64
    rw [if_pos h3, Nat.shiftLeft_eq, Nat.one_mul, Nat.mod_eq_of_lt (Nat.pow_lt_pow_right (by omega) h3)]
  rw [a]
  unfold grpDeserialize
  simp only [takeBytes_append _ _ (toBytes_length _ _), ok_bind, ofBytes1 h1, ofBytes1 h2, ofBytes1 (show tb < 256 by omega),
    ofBytes8 h4, ofBytes1 h5, if_neg h0, e1, h6, h7, pure_eq_ok]

/-- Serialising a table and reading the bytes into any table gives a table with the same contents; the arrays need not have a
spare word any more.  The number of buckets of a table without entries is not restored. -/
theorem grpSerialize_ok {e : GrpCfg} {l : List (Nat × Nat)} (L : Laws (grpMapE c e hk) (grpPar sp hk kw vw)) {t : Tab GrpStore Unit}
    (h : Inv (grpMap c hk) (grpPar sp hk kw vw) t l) (hsz : t.size < 2 ^ 64) :
    ∃ bytes, grpSerialize c hk t = .ok bytes ∧ ∀ (t0 : Tab GrpStore Unit) (rest : List Nat),
      ∃ t', grpDeserialize c hk t0 (bytes ++ rest) = .ok (t', rest) ∧ Inv (grpMap c hk) (grpPar false hk kw vw) t' l ∧
        t'.bpg = t.bpg ∧ (t.size ≠ 0 → t'.tb = t.tb) := by
  have hkw : kw ≤ 64 := L.kw_le
  have hvw : vw ≤ 64 := L.vw_le
  by_cases he : t.elems = 0
  · -- no entries
    have hh : t.kw = kw ∧ t.vw = vw ∧ 1 ≤ t.bpg ∧ t.bpg ≤ 64 ∧ t.tb < 64 ∧ l = [] := by
      rcases h with ⟨h1, h2, h3, h4, h5, h6, h7, _⟩ | ⟨cont, o, full, hl, hp⟩
      · exact ⟨h1, h2, h3, h4, by omega, h7⟩
      · refine ⟨hl.tkw, hl.tvw, hl.bpg_pos, hl.bpg_le, Nat.lt_of_le_of_lt hl.hi L.hi_lt, ?_⟩
        have h1 := hl.elems
        rw [he] at h1
        have h2 := List.eq_nil_of_length_eq_zero h1.symm
        rw [h2] at hp
        exact hp.eq_nil
    obtain ⟨h1, h2, h3, h4, h5, h6⟩ := hh
    refine ⟨_, by unfold grpSerialize; rw [if_pos he]; rfl, fun t0 rest => ?_⟩
    refine ⟨{ t0.clear (grpMap c hk) with kw := t.kw, vw := t.vw, elems := 0, bpg := t.bpg }, ?_, ?_, rfl, fun h => absurd he h⟩
    · unfold grpDeserialize
      rw [he]
      simp only [List.append_assoc, takeBytes_append _ _ (toBytes_length _ _), ok_bind, ofBytes1 (show t.kw < 256 by omega),
        ofBytes1 (show t.vw < 256 by omega), ofBytes8 (show 0 < 2 ^ 64 by omega), ofBytes1 (show t.bpg < 256 by omega),
        if_true, pure_eq_ok]
    · exact .inl ⟨h1, h2, h3, h4, rfl, rfl, h6, rfl, 0, fun _ => false, rfl, rfl⟩
  · rcases h with ⟨_, _, _, _, _, h6, _⟩ | ⟨cont, o, full, hl, hp⟩
    · exact absurd h6 he
    · have ho : o = [] := hl.orep.1
      subst ho
      have htb : t.tb < 64 := Nat.lt_of_le_of_lt hl.hi L.hi_lt
      have hR : GrpRep sp t.store (t.dim (grpMap c hk)) cont := hl.rep
      have hl' : Live (grpMapE c e hk) (grpPar sp hk kw vw) t cont [] full := Live_withErase.mpr hl
      have hcnt : grpCount t = t.store.n := by
        have := hl'.tb_pos L
        unfold grpCount
        rw [if_neg (by omega), hl'.bc L, hR.n]; rfl
      obtain ⟨r, e1, e2⟩ := grpSerGroups_ok (c := c) hR.grp (grpCount t) 0 (by omega)
      refine ⟨_, by unfold grpSerialize; rw [if_neg he, e1]; rfl, fun t0 rest => ?_⟩
      obtain ⟨t1, full1, g1, g2, g3, g4⟩ := reserveEmpty_ok L
        (t := { t0.clear (grpMap c hk) with kw := t.kw, vw := t.vw, bpg := t.bpg }) (n := 2 ^ t.tb) (r := t.tb) (m := 0)
        (full := fun _ => false) hl.tkw hl.tvw hl.bpg_pos hl.bpg_le rfl ⟨rfl, rfl⟩ rfl (reserveBits_pow htb) hl.lo hl.hi
      rw [grpMapE, reserveEmpty_withErase] at g1
      rw [grpMapE, Live_withErase] at g2
      have hr : Tab.reserve (grpMap c hk) { t0.clear (grpMap c hk) with kw := t.kw, vw := t.vw, elems := t.elems, bpg := t.bpg }
          (2 ^ t.tb) = .ok { t1 with elems := t.elems } := by
        unfold Tab.reserve Tab.reserveWith
        rw [reserveBits_pow htb]
        exact reserveEmpty_elems (grpMap c hk) { t0.clear (grpMap c hk) with kw := t.kw, vw := t.vw, bpg := t.bpg } t1 _ t.elems g1
      have hd1 : Tab.dim (grpMap c hk) { t1 with elems := t.elems } = t.dim (grpMap c hk) := by
        unfold Tab.dim Tab.hash
        simp only [g3, g4, g2.tkw, g2.tvw, hl.tkw, hl.tvw]
      have hR1 : GrpRep sp t1.store (t1.dim (grpMap c hk)) (fun _ => []) := g2.rep
      have hn1 : t1.store.n = t.store.n := by
        rw [hR1.n, hR.n]
        show 2 ^ t1.tb / t1.bpg + 1 = _
        rw [g3, g4]; rfl
      have hc1 : grpCount { t1 with elems := t.elems } = grpCount t := by
        unfold grpCount Tab.bucketCount
        simp only [g3, g4]
      obtain ⟨s1, f1, f2, f3, _⟩ := e2 t1.store rest hn1
      refine ⟨_, grpDeser_eq (by have := hl.tkw; change t.kw = kw at this; omega) (by have := hl.tvw; change t.vw = vw at this; omega)
        htb hsz (by have := hl.bpg_le; omega) he hr (by rw [hd1, hc1]; exact f1), .inr ⟨cont, [], full1, ?_, ?_⟩, g4, fun _ => g3⟩
      · refine { tkw := g2.tkw, tvw := g2.tvw, bpg_pos := g2.bpg_pos, bpg_le := g2.bpg_le, lo := g2.lo, hi := g2.hi,
                 rep := ?_, orep := g2.orep, cok := ?_, ofull := by simp, vals := ?_, ovals := by simp, elems := ?_ }
        · show GrpRep false s1 (Tab.dim (grpMap c hk) { t1 with elems := t.elems }) cont
          rw [hd1]
          exact ⟨by rw [f2]; exact hR.n, hR.out, fun j hj => f3 j (by omega) (by omega)⟩
        · show COK _ _ t1.tb _ _
          rw [g3]; exact hl.cok
        · intro b hb
          exact hl.vals b (by rw [← g3]; exact hb)
        · show t.elems = (ents _ t1.tb cont []).length
          rw [g3]; exact hl.elems
      · show l.Perm (ents _ t1.tb cont [])
        rw [g3]; exact hp

end SC
