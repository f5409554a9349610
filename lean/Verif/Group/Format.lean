import Verif.Group.Serial
import Verif.Sep.Format
/-!
# The bytes `group_chaining_table::serialize` writes
-/
namespace SC

/-! ## The format -/

/-- bucket sizes in unary: as many zeros as there are entries, then a one; behind the last bucket there is another one -/
def unary (lens : List Nat) : List Bool := lens.flatMap (fun n => List.replicate n false ++ [true]) ++ [true]

/-- The bytes form one little-endian number with these bits, rounded up to whole 64-bit words.  Nothing is said about the bits
behind. -/
def bitsFmt (bits : List Bool) (bytes : List Nat) : Prop :=
  bytes.length = 8 * ceilDiv bits.length 64 ∧ (∀ y ∈ bytes, y < 256) ∧
    ∀ i (h : i < bits.length), (ofBytes bytes).testBit i = bits[i]

/-- the quotient of a key -/
def quotOf (H : HashMapping) (tb k : Nat) : Nat := match H.map k tb with
  | .ok (q, _) => q
  | .error _ => 0

/-- the pairs in group `j`, which consists of `bpg` buckets -/
def groupRow (row : Nat → List (Nat × Nat)) (bpg j : Nat) : List (Nat × Nat) :=
  (List.range bpg).flatMap (fun g => row (j * bpg + g))

/-- The blocks of the `n` groups from `j` on: the number of entries in four bytes and, if it is not zero, the sizes of the buckets
in unary, the quotients and the values, each in whole 64-bit words. -/
inductive GroupBlocks (H : HashMapping) (tb vw bpg : Nat) (row : Nat → List (Nat × Nat)) : Nat → Nat → List Nat → Prop
  | nil {j : Nat} : GroupBlocks H tb vw bpg row j 0 []
  | empty {j n : Nat} {bytes : List Nat} : groupRow row bpg j = [] → GroupBlocks H tb vw bpg row (j + 1) n bytes →
      GroupBlocks H tb vw bpg row j (n + 1) ([0, 0, 0, 0] ++ bytes)
  | block {j n : Nat} {bs ks vs bytes : List Nat} : groupRow row bpg j ≠ [] → (groupRow row bpg j).length ≤ 255 →
      bitsFmt (unary ((List.range bpg).map (fun g => (row (j * bpg + g)).length))) bs →
      packedFmt 64 (H.remainderWidth tb) ((groupRow row bpg j).map (fun e => quotOf H tb e.1)) ks →
      packedFmt 64 vw ((groupRow row bpg j).map Prod.snd) vs → GroupBlocks H tb vw bpg row (j + 1) n bytes →
      GroupBlocks H tb vw bpg row j (n + 1) (toBytes 4 (groupRow row bpg j).length ++ bs ++ ks ++ vs ++ bytes)

/-- The bytes of a table with `2^tb` buckets whose buckets hold the pairs `row`, each in the bucket of its key: the two widths and `tb` in one byte each, the
number of elements in eight bytes, the number of buckets of a group in one byte; if there are elements, the blocks of the groups
(one more than needed if `bpg` divides the number of buckets). -/
def GrpFile (H : HashMapping) (kw vw tb bpg : Nat) (row : Nat → List (Nat × Nat)) (bytes : List Nat) : Prop :=
  (∀ b, ∀ e ∈ row b, ∃ q, H.map e.1 tb = .ok (q, b)) ∧ (∀ b, 2 ^ tb ≤ b → row b = []) ∧
  ∃ body, bytes = toBytes 1 kw ++ toBytes 1 vw ++ toBytes 1 tb ++
      toBytes 8 ((List.range (2 ^ tb)).flatMap row).length ++ toBytes 1 bpg ++ body ∧
    (if (List.range (2 ^ tb)).flatMap row = [] then body = [] else GroupBlocks H tb vw bpg row 0 (2 ^ tb / bpg + 1) body)

/-! ## Groups -/

theorem unary_length (lens : List Nat) : (unary lens).length = lens.sum + lens.length + 1 := by
  unfold unary
  induction lens with
  | nil => rfl
  | cons n ns ih =>
    simp only [List.flatMap_cons, List.append_assoc, List.length_append, List.length_replicate, List.length_cons, List.length_nil,
      List.sum_cons] at ih ⊢
    omega

theorem ofBytes_append (xs ys : List Nat) : ofBytes (xs ++ ys) = ofBytes xs + 256 ^ xs.length * ofBytes ys := by
  induction xs with
  | nil => simp [ofBytes]
  | cons x xs ih =>
    simp only [List.cons_append, ofBytes, ih, List.length_cons, Nat.pow_succ]
    rw [Nat.mul_add, ← Nat.mul_assoc, Nat.mul_comm 256 (256 ^ xs.length)]
    omega

theorem toBytes_lt (n x : Nat) : ∀ y ∈ toBytes n x, y < 256 := by
  induction n generalizing x with
  | zero => simp [toBytes]
  | succ n ih =>
    intro y hy
    simp only [toBytes, List.mem_cons] at hy
    rcases hy with rfl | hy
    · exact Nat.mod_lt _ (by omega)
    · exact ih _ y hy

/-- the words of a border are written one after the other -/
theorem Border.write_bits {b : Border} (hw : ∀ i < b.len, b.w i < 2 ^ 64) : ∀ n i, i + n ≤ b.len →
    ∃ bytes, b.write i n = .ok bytes ∧ bytes.length = 8 * n ∧ (∀ y ∈ bytes, y < 256) ∧
      ∀ j < 64 * n, (ofBytes bytes).testBit j = b.bit (64 * i + j) := by
  intro n
  induction n with
  | zero => intro i _; exact ⟨[], rfl, rfl, by simp, fun j hj => absurd hj (by omega)⟩
  | succ n ih =>
    intro i hi
    obtain ⟨bytes, e1, e2, e3, e4⟩ := ih (i + 1) (by omega)
    have hwi := hw i (by omega)
    refine ⟨toBytes 8 (b.w i) ++ bytes, by
      simp only [Border.write, Border.get_ok (show i < b.len by omega), ok_bind, e1, pure_eq_ok], ?_, ?_, ?_⟩
    · rw [List.length_append, toBytes_length, e2]; omega
    · intro y hy
      rcases List.mem_append.mp hy with h | h
      · exact toBytes_lt _ _ y h
      · exact e3 y h
    · intro j hj
      rw [ofBytes_append, ofBytes8 hwi, toBytes_length, show (256 : Nat) ^ 8 = 2 ^ 64 by rfl, Nat.add_comm,
        Nat.testBit_two_pow_mul_add _ hwi]
      by_cases h : j < 64
      · rw [if_pos h]
        unfold Border.bit
        rw [show (64 * i + j) / 64 = i by omega, show (64 * i + j) % 64 = j by omega]
      · rw [if_neg h, e4 (j - 64) (by omega), show 64 * (i + 1) + (j - 64) = 64 * i + j by omega]

/-- the buckets in front of bucket `m` in unary -/
def unaryTo (lens : Nat → Nat) (m : Nat) : List Bool :=
  ((List.range m).map lens).flatMap (fun n => List.replicate n false ++ [true])

theorem unaryTo_succ (lens : Nat → Nat) (m : Nat) :
    unaryTo lens (m + 1) = unaryTo lens m ++ (List.replicate (lens m) false ++ [true]) := by
  simp [unaryTo, List.range_succ, List.flatMap_append]

theorem unaryTo_length (lens : Nat → Nat) (m : Nat) : (unaryTo lens m).length = pre lens m + m := by
  induction m with
  | zero => rfl
  | succ m ih =>
    rw [unaryTo_succ, List.length_append, ih, pre]
    simp only [List.length_append, List.length_replicate, List.length_cons, List.length_nil]
    omega

theorem BorderRep.unaryTo {b : Border} {bpg size : Nat} {lens : Nat → Nat} (h : BorderRep b bpg size lens) :
    ∀ m ≤ bpg, rank b.bit (pre lens m + m) = m ∧ ∀ i < pre lens m + m, (unaryTo lens m)[i]? = some (b.bit i) := by
  intro m
  induction m with
  | zero => intro _; exact ⟨rfl, fun i hi => absurd hi (by simp [pre])⟩
  | succ m ih =>
    intro hm
    obtain ⟨ih1, ih2⟩ := ih (by omega)
    obtain ⟨s1, s2⟩ := h.sel m (by omega)
    have e : pre lens (m + 1) = pre lens m + lens m := rfl
    refine ⟨?_, ?_⟩
    · rw [show pre lens (m + 1) + (m + 1) = pre lens (m + 1) + m + 1 by omega, rank, s1, s2]
      rfl
    · intro i hi
      rw [unaryTo_succ]
      by_cases h1 : i < pre lens m + m
      · rw [List.getElem?_append_left (by rw [unaryTo_length]; exact h1)]
        exact ih2 i h1
      · rw [List.getElem?_append_right (by rw [unaryTo_length]; omega), unaryTo_length]
        by_cases h2 : i = pre lens (m + 1) + m
        · rw [h2, s1, e, List.getElem?_append_right (by simp; omega)]
          simp only [List.length_replicate]
          rw [show pre lens m + lens m + m - (pre lens m + m) - lens m = 0 by omega]
          rfl
        · rw [List.getElem?_append_left (by simp only [List.length_replicate]; omega), List.getElem?_replicate, if_pos (by omega)]
          cases hb : b.bit i with
          | false => rfl
          | true =>
            have h3 := rank_mono b.bit (show pre lens m + m ≤ i by omega)
            have h4 := rank_lt b.bit hb (show i < pre lens (m + 1) + m by omega)
            omega

/-- the bits of a border -/
theorem BorderRep.bits {b : Border} {bpg size : Nat} {lens : Nat → Nat} (h : BorderRep b bpg size lens) :
    ∀ i (hi : i < (unary ((List.range bpg).map lens)).length), b.bit i = (unary ((List.range bpg).map lens))[i] := by
  intro i hi
  have e : unary ((List.range bpg).map lens) = SC.unaryTo lens bpg ++ [true] := rfl
  have hl : (SC.unaryTo lens bpg ++ [true]).length = pre lens bpg + bpg + 1 := by
    rw [List.length_append, unaryTo_length]; rfl
  have : (unary ((List.range bpg).map lens))[i]? = some (b.bit i) := by
    rw [e]
    rw [e, hl] at hi
    by_cases h1 : i < pre lens bpg + bpg
    · rw [List.getElem?_append_left (by rw [unaryTo_length]; exact h1)]
      exact (h.unaryTo bpg (Nat.le_refl _)).2 i h1
    · obtain ⟨s1, _⟩ := h.sel bpg (Nat.le_refl _)
      have e2 : pre lens (bpg + 1) = pre lens bpg := by rw [pre, h.out bpg (Nat.le_refl _)]; rfl
      rw [e2] at s1
      have : i = pre lens bpg + bpg := by omega
      rw [this, s1, List.getElem?_append_right (by rw [unaryTo_length]), unaryTo_length, Nat.sub_self]
      rfl
  rw [List.getElem?_eq_getElem hi] at this
  exact (Option.some.inj this).symm

theorem core_fmt {sp : Bool} {b : VarB} {w : Nat} {xs : List Nat} (h : CoreRep sp b w xs) :
    ∃ bytes, coreSerialize b w xs.length = .ok bytes ∧ packedFmt 64 w xs bytes := by
  obtain ⟨m, rfl, hd, h1, _, h2⟩ := h
  have hge := ceilDiv_mul_ge (w * xs.length) (show 0 < 64 by omega)
  have hal : 64 * ceilDiv (w * xs.length) 64 ≤ m.alloc := by
    obtain ⟨k, hk⟩ := hd
    rw [hk] at h1 ⊢
    exact Nat.mul_le_mul_left _ (ceilDiv_le_of (by omega) (by rw [Nat.mul_comm w]; exact h1))
  refine ⟨memBytes m.bits (8 * ceilDiv (w * xs.length) 64), ?_, ?_, memBytes_lt _ _, ?_⟩
  · simp only [coreSerialize, deref, ok_bind, guardB, pure_eq_ok]
    rw [if_neg (by simp; omega)]
    rfl
  · rw [memBytes_length, Nat.mul_comm w]
  · intro i hi
    have := idx_end (w := w) hi
    rw [ofBytes_memBytes, readBits_digit, h2 i hi]
    rw [Nat.mul_comm w] at hge ⊢
    omega

theorem pre_range (lens : Nat → Nat) (n : Nat) : ((List.range n).map lens).sum = pre lens n := by
  induction n with
  | zero => rfl
  | succ n ih => rw [List.range_succ, List.map_append, List.sum_append, ih, pre]; simp

theorem flat_range (cs : Cont) (n : Nat) : flat cs n = (List.range n).flatMap cs := by
  induction n with
  | zero => rfl
  | succ n ih => rw [List.range_succ, List.flatMap_append, flat, ih]; simp

variable {c : GrpCfg} {sp : Bool} {hk : HashKind} {kw vw : Nat}

/-- the bytes of a group -/
theorem SlotRep.fmt {x : Group} {bpg qw vw : Nat} {cs : Cont} (h : SlotRep sp x bpg qw vw cs) :
    (flat cs bpg = [] → x.serialize bpg qw vw = .ok [0, 0, 0, 0]) ∧
    (flat cs bpg ≠ [] → (flat cs bpg).length ≤ 255 ∧ ∃ bs ks vs,
      x.serialize bpg qw vw = .ok (toBytes 4 (flat cs bpg).length ++ bs ++ ks ++ vs) ∧
      bitsFmt (unary ((List.range bpg).map (fun g => (cs g).length))) bs ∧ packedFmt 64 qw ((flat cs bpg).map Prod.fst) ks ∧
      packedFmt 64 vw ((flat cs bpg).map Prod.snd) vs) := by
  rcases h with ⟨rfl, h⟩ | ⟨h, hle⟩
  · have e : flat cs bpg = [] := by
      rw [flat_range]
      exact List.flatMap_eq_nil_iff.mpr (fun g _ => h g)
    exact ⟨fun _ => rfl, fun hne => absurd e hne⟩
  · constructor
    · intro e
      have h0 : x.size = 0 := by rw [h.size, e]; rfl
      simp only [Group.serialize, h0, if_true, pure_eq_ok]
      rfl
    · intro hne
      have h0 : ¬ x.size = 0 := by rw [h.size]; exact fun e => hne (List.length_eq_zero_iff.mp e)
      obtain ⟨b, hb, hB⟩ := h.border
      obtain ⟨bs, e1, e2, e3, e4⟩ := Border.write_bits hB.word b.len 0 (by omega)
      obtain ⟨ks, k1, k2⟩ := core_fmt h.keys
      obtain ⟨vs, v1, v2⟩ := core_fmt h.vals
      rw [List.length_map] at k1 v1
      have hsz := h.size
      have hn : ceilDiv (x.size + 1 + bpg) 64 = b.len := by rw [hB.len, hsz]
      refine ⟨hle, bs, ks, vs, ?_, ⟨?_, e3, ?_⟩, k2, v2⟩
      · simp only [Group.serialize, if_neg h0, Group.getBorder, hb, ok_bind, hn, e1]
        rw [hsz, k1, ok_bind, v1]
        rfl
      · rw [e2, hB.len, unary_length, pre_range, hB.total]
        simp only [List.length_map, List.length_range]
        congr 2
        omega
      · intro i hi
        have hlen : (unary ((List.range bpg).map (fun g => (cs g).length))).length ≤ 64 * b.len := by
          have := ceilDiv_mul_ge ((flat cs bpg).length + 1 + bpg) (show 0 < 64 by omega)
          rw [hB.len, unary_length, pre_range, hB.total]
          simp only [List.length_map, List.length_range]
          omega
        rw [e4 i (by omega), show 64 * 0 + i = i by omega]
        exact hB.bits i hi

/-! ## Tables -/

/-- the pairs in a bucket -/
def rowOf (H : HashMapping) (tb : Nat) (cont : Cont) (b : Nat) : List (Nat × Nat) := bEnts H tb b (cont b)

theorem flatMap_congr_mem {α β : Type} {l : List α} {f g : α → List β} (h : ∀ x ∈ l, f x = g x) : l.flatMap f = l.flatMap g := by
  rw [List.flatMap_def, List.flatMap_def, List.map_congr_left h]

theorem local_row (bpg : Nat) (cont : Cont) (j : Nat) :
    flat (localCont bpg cont j) bpg = (List.range bpg).flatMap (fun g => cont (j * bpg + g)) := by
  rw [flat_range]
  apply flatMap_congr_mem
  intro g hg
  unfold localCont
  rw [if_pos (List.mem_range.mp hg)]

theorem serGroups_format {H : HashMapping} {s : GrpStore} {d : Dim} {cont : Cont} (hq : d.qw = H.remainderWidth d.tb)
    (hrow : ∀ b, ∀ e ∈ cont b, H.map (invKey H d.tb b e.1) d.tb = .ok (e.1, b))
    (h : ∀ j < s.n, SlotRep sp (s.grp j) d.bpg d.qw d.vw (localCont d.bpg cont j)) : ∀ n j, j + n ≤ s.n →
    ∃ bytes, grpSerGroups s d j n = .ok bytes ∧ GroupBlocks H d.tb d.vw d.bpg (rowOf H d.tb cont) j n bytes := by
  intro n
  induction n with
  | zero => intro j _; exact ⟨[], rfl, .nil⟩
  | succ n ih =>
    intro j hj
    obtain ⟨bytes, e1, e2⟩ := ih (j + 1) (by omega)
    obtain ⟨f1, f2⟩ := (h j (by omega)).fmt
    have hlt : j < s.n := by omega
    have hlen : (groupRow (rowOf H d.tb cont) d.bpg j).length = (flat (localCont d.bpg cont j) d.bpg).length := by
      rw [local_row]
      simp [groupRow, rowOf, bEnts, List.length_flatMap]
    have hval : (groupRow (rowOf H d.tb cont) d.bpg j).map Prod.snd = (flat (localCont d.bpg cont j) d.bpg).map Prod.snd := by
      rw [local_row]
      simp [groupRow, rowOf, bEnts, List.map_flatMap, Function.comp_def]
    have hquo : (groupRow (rowOf H d.tb cont) d.bpg j).map (fun e => quotOf H d.tb e.1) =
        (flat (localCont d.bpg cont j) d.bpg).map Prod.fst := by
      rw [local_row]
      simp only [groupRow, rowOf, bEnts, List.map_flatMap, List.map_map]
      apply flatMap_congr_mem
      intro g _
      apply List.map_congr_left
      intro e he
      simp only [Function.comp_def, quotOf, hrow _ e he]
    by_cases h0 : flat (localCont d.bpg cont j) d.bpg = []
    · refine ⟨[0, 0, 0, 0] ++ bytes, by simp only [grpSerGroups, GrpStore.get, if_pos hlt, ok_bind, f1 h0, e1, pure_eq_ok], .empty ?_ e2⟩
      rw [h0] at hlen
      exact List.length_eq_zero_iff.mp hlen
    · obtain ⟨g0, bs, ks, vs, g1, g2, g3, g4⟩ := f2 h0
      refine ⟨toBytes 4 (groupRow (rowOf H d.tb cont) d.bpg j).length ++ bs ++ ks ++ vs ++ bytes, ?_, .block ?_ ?_ ?_ ?_ ?_ e2⟩
      · simp only [grpSerGroups, GrpStore.get, if_pos hlt, ok_bind, g1, e1, pure_eq_ok, hlen]
      · intro e
        rw [e] at hlen
        exact h0 (List.length_eq_zero_iff.mp hlen.symm)
      · rw [hlen]; exact g0
      · have : (List.range d.bpg).map (fun g => (rowOf H d.tb cont (j * d.bpg + g)).length) =
            (List.range d.bpg).map (fun g => (localCont d.bpg cont j g).length) := by
          apply List.map_congr_left
          intro g hg
          unfold localCont
          rw [if_pos (List.mem_range.mp hg), rowOf, bEnts, List.length_map]
        rw [this]; exact g2
      · rw [hquo, ← hq]; exact g3
      · rw [hval]; exact g4

/-- The bytes of a table. -/
theorem grpSerialize_format {e : GrpCfg} {l : List (Nat × Nat)} (L : Laws (grpMapE c e hk) (grpPar sp hk kw vw)) {t : Tab GrpStore Unit}
    (h : Inv (grpMap c hk) (grpPar sp hk kw vw) t l) :
    ∃ bytes row, grpSerialize c hk t = .ok bytes ∧ t.pairs (grpMap c hk) = .ok ((List.range (2 ^ t.tb)).flatMap row) ∧
      GrpFile (hk.mapping kw) kw vw t.tb t.bpg row bytes := by
  rcases h with ⟨h1, h2, h3, h4, h5, h6, rfl, hst, n, full, h7⟩ | ⟨cont, o, full, hl, hp⟩
  · have hbc : t.bucketCount = 0 := by simp [Tab.bucketCount, h5]
    refine ⟨toBytes 1 t.kw ++ toBytes 1 t.vw ++ toBytes 1 t.tb ++ toBytes 8 t.elems ++ toBytes 1 t.bpg, fun _ => [],
      by unfold grpSerialize; rw [if_pos h6]; rfl, ?_, by simp, by simp, [], ?_, ?_⟩
    · have hs : (grpMap c hk).ov.size t.ovf = 0 := rfl
      simp only [Tab.pairs, Tab.beginNav, hbc, Tab.scanUp, ok_bind, Nat.lt_irrefl, if_false, hs, pure_eq_ok, Tab.visit,
        navEq_true (show t.tb < 64 by omega) (invalid_end (show t.tb < 64 by omega)), if_true]
      simp
    · have e0 : (List.range (2 ^ t.tb)).flatMap (fun _ => ([] : List (Nat × Nat))) = [] := by simp
      rw [e0, h6, h1, h2, List.append_nil]
      rfl
    · simp
  · have ho : o = [] := hl.orep.1
    subst ho
    have hl' : Live (grpMapE c e hk) (grpPar sp hk kw vw) t cont [] full := Live_withErase.mpr hl
    have hR : GrpRep sp t.store (t.dim (grpMap c hk)) cont := hl.rep
    have hmap : LawfulMapping (hk.mapping kw) kw t.tb := hl'.map_ok L
    have hcok : COK (hk.mapping kw) kw t.tb cont [] := hl.cok
    have hst : stored (hk.mapping kw) t.tb cont = (List.range (2 ^ t.tb)).flatMap (rowOf (hk.mapping kw) t.tb cont) := rfl
    have hel : t.elems = (stored (hk.mapping kw) t.tb cont).length := by
      have := hl.elems
      rw [this]
      simp only [ents, List.map_nil, List.append_nil]
      rfl
    have hrow : ∀ b, ∀ e ∈ cont b, (hk.mapping kw).map (invKey (hk.mapping kw) t.tb b e.1) t.tb = .ok (e.1, b) := by
      intro b e he
      by_cases hb : b < 2 ^ t.tb
      · exact (map_of_mem hmap hcok hb he).2.1
      · rw [hR.out b (by show 2 ^ t.tb ≤ b; omega)] at he
        cases he
    have hpairs : t.pairs (grpMap c hk) = .ok (stored (hk.mapping kw) t.tb cont) := by
      obtain ⟨n, v1, v2⟩ := hl'.visit_begin L (show t.elems < t.size + 1 by simp [Tab.size])
      have : t.pairs (grpMapE c e hk) = .ok (stored (hk.mapping kw) t.tb cont) := by
        simp only [Tab.pairs, v1, ok_bind, v2]
        rfl
      rw [grpMapE, pairs_withErase] at this
      exact this
    have hrow' : ∀ b, ∀ e ∈ rowOf (hk.mapping kw) t.tb cont b, ∃ q, (hk.mapping kw).map e.1 t.tb = .ok (q, b) := by
      intro b e he
      simp only [rowOf, bEnts, List.mem_map] at he
      obtain ⟨x, hx, rfl⟩ := he
      exact ⟨_, hrow b x hx⟩
    have hout' : ∀ b, 2 ^ t.tb ≤ b → rowOf (hk.mapping kw) t.tb cont b = [] := by
      intro b hb
      unfold rowOf
      rw [hR.out b hb]
      rfl
    have tkw : t.kw = kw := hl.tkw
    have tvw : t.vw = vw := hl.tvw
    by_cases he : t.elems = 0
    · refine ⟨_, rowOf (hk.mapping kw) t.tb cont, by unfold grpSerialize; rw [if_pos he]; rfl, by rw [hpairs, hst], hrow', hout', [], ?_, ?_⟩
      · rw [← hst, ← hel, tkw, tvw, List.append_nil]
      · rw [← hst, if_pos]
        rw [hel] at he
        exact List.length_eq_zero_iff.mp he
    · have hcnt : grpCount t = t.store.n := by
        have := hl'.tb_pos L
        unfold grpCount
        rw [if_neg (by omega), hl'.bc L, hR.n]; rfl
      obtain ⟨r, e1, e2⟩ := serGroups_format (H := hk.mapping kw) (d := t.dim (grpMap c hk))
        (by unfold Tab.dim Tab.hash; rw [tkw]; rfl) hrow hR.grp (grpCount t) 0 (by omega)
      refine ⟨_, rowOf (hk.mapping kw) t.tb cont, by unfold grpSerialize; rw [if_neg he, e1]; rfl, by rw [hpairs, hst], hrow', hout', r, ?_, ?_⟩
      · rw [← hst, ← hel, tkw, tvw]
      · rw [← hst, if_neg]
        · have e3 : (t.dim (grpMap c hk)).vw = vw := tvw
          rw [e3, hcnt, hR.n] at e2
          exact e2
        · intro e4
          rw [hel, e4] at he
          exact he rfl

end SC
