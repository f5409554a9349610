import Verif.Group.DebugSerial
import Verif.Group.FormatRead
import Verif.Sep.DebugFiles
/-!
# Lengths of the files of debug and release builds of `group_chaining_table`
-/
namespace SC

/-! ## Release files -/

/-- number of pairs in the first `m` buckets -/
def rowSum (row : Nat → List (Nat × Nat)) (m : Nat) : Nat := ((List.range m).flatMap row).length

theorem rowSum_add (row : Nat → List (Nat × Nat)) (m : Nat) : ∀ n, rowSum row (m + n) =
    rowSum row m + ((List.range n).flatMap (fun g => row (m + g))).length := by
  intro n
  induction n with
  | zero => simp
  | succ n ih =>
    rw [← Nat.add_assoc]
    unfold rowSum at ih ⊢
    rw [List.range_succ, List.range_succ, List.flatMap_append, List.flatMap_append, List.length_append, List.length_append, ih]
    simp only [List.flatMap_cons, List.flatMap_nil, List.append_nil]
    omega

theorem rowSum_group (row : Nat → List (Nat × Nat)) (bpg j : Nat) :
    rowSum row ((j + 1) * bpg) = rowSum row (j * bpg) + (groupRow row bpg j).length := by
  rw [Nat.succ_mul, rowSum_add]
  rfl

theorem rowSum_out {row : Nat → List (Nat × Nat)} {m : Nat} (h : ∀ b, m ≤ b → row b = []) (n : Nat) : rowSum row (m + n) = rowSum row m := by
  rw [rowSum_add]
  have : (List.range n).flatMap (fun g => row (m + g)) = [] := by
    rw [List.flatMap_eq_nil_iff]
    intro g _
    exact h _ (by omega)
  rw [this]
  rfl

theorem packed_le {s w : Nat} (h : w ≤ 64) : ceilDiv (s * w) 64 ≤ s := by
  have := Nat.mul_le_mul_left s h
  unfold ceilDiv
  omega

theorem packed_lt {s w : Nat} (h : w < 64) : ceilDiv (s * w) 64 ≤ s - s / 64 := by
  have := Nat.mul_le_mul_left s (show w ≤ 63 by omega)
  unfold ceilDiv
  omega

/-- the groups in a file of a release build -/
theorem groupBlocks_len {H : HashMapping} {tb vw bpg : Nat} {row : Nat → List (Nat × Nat)} (hq : H.remainderWidth tb ≤ 64) (hv : vw ≤ 64)
    (hqv : H.remainderWidth tb < 64 ∨ vw < 64) {j n : Nat} {bytes : List Nat} (h : GroupBlocks H tb vw bpg row j n bytes) :
    bytes.length + 16 * rowSum row (j * bpg) ≤ n * (20 + 8 * (bpg / 64)) + 16 * rowSum row ((j + n) * bpg) := by
  induction h with
  | nil => simp
  | @empty j n bytes h0 _ ih =>
    rw [rowSum_group, h0, List.length_nil] at ih
    rw [Nat.succ_mul n, show j + (n + 1) = j + 1 + n by omega]
    simp only [List.length_append, List.length_cons, List.length_nil]
    omega
  | @block j n bs ks vs bytes _ _ hb hk hv' _ ih =>
    rw [rowSum_group] at ih
    rw [Nat.succ_mul n, show j + (n + 1) = j + 1 + n by omega]
    have e : ((List.range bpg).map (fun g => (row (j * bpg + g)).length)).sum = (groupRow row bpg j).length := by
      rw [groupRow, List.length_flatMap]
    have h1 := hb.1
    rw [unary_length, e, List.length_map, List.length_range] at h1
    have h2 := hk.1
    have h3 := hv'.1
    rw [List.length_map] at h2 h3
    have h4 : ceilDiv ((groupRow row bpg j).length * H.remainderWidth tb) 64 + ceilDiv ((groupRow row bpg j).length * vw) 64 ≤
        2 * (groupRow row bpg j).length - (groupRow row bpg j).length / 64 := by
      rcases hqv with h | h
      · have := packed_lt (s := (groupRow row bpg j).length) h
        have := packed_le (s := (groupRow row bpg j).length) hv
        omega
      · have := packed_le (s := (groupRow row bpg j).length) hq
        have := packed_lt (s := (groupRow row bpg j).length) h
        omega
    have h5 : ceilDiv ((groupRow row bpg j).length + bpg + 1) 64 ≤ (groupRow row bpg j).length / 64 + bpg / 64 + 2 := by
      unfold ceilDiv; omega
    simp only [List.length_append, toBytes_length]
    omega

/-! ## Reading in a debug build -/

theorem ddcheck_holds {p : Prop} [Decidable p] {u : Unit} (h : ddcheck true p = .ok u) : p := by
  by_cases hp : p
  · exact hp
  · rw [ddcheck_fails hp] at h; cases h

theorem reserve_elems {S O : Type} {g : Cfg S O} {t t1 : Tab S O} {n r : Nat} (h0 : t.tb = 0) (hr : reserveBits n = .ok r)
    (h : t.reserve g n = .ok t1) : t1.tb = r ∧ t1.elems = t.elems ∧ t1.bpg = t.bpg := by
  unfold Tab.reserve Tab.reserveWith Tab.reserveEmpty at h
  rw [hr, ok_bind, if_pos h0, ok_bind] at h
  obtain ⟨_, _, h⟩ := bind_eq_ok h
  obtain ⟨_, _, h⟩ := bind_eq_ok h
  obtain ⟨_, _, h⟩ := bind_eq_ok h
  cases h
  exact ⟨rfl, rfl, rfl⟩

theorem wordsRead_len : ∀ (n : Nat) {is is' xs : List Nat}, wordsRead n is = .ok (xs, is') → is.length = 8 * n + is'.length := by
  intro n
  induction n with
  | zero => intro is is' xs h; cases h; omega
  | succ n ih =>
    intro is is' xs h
    unfold wordsRead at h
    obtain ⟨⟨x, is1⟩, h1, h⟩ := bind_eq_ok h
    obtain ⟨⟨r, is2⟩, h2, h⟩ := bind_eq_ok h
    cases h
    rw [takeBytes_len h1, ih h2]
    omega

theorem borderRead_len : ∀ (n i : Nat) {w w' : Nat → Nat} {is is' : List Nat}, borderRead i n w is = .ok (w', is') →
    is.length = 8 * n + is'.length := by
  intro n
  induction n with
  | zero => intro i w w' is is' h; cases h; omega
  | succ n ih =>
    intro i w w' is is' h
    unfold borderRead at h
    obtain ⟨⟨x, is1⟩, h1, h⟩ := bind_eq_ok h
    rw [takeBytes_len h1, ih (i + 1) h]
    omega

theorem coreDbgRead_len {c : GrpCfg} {w len : Nat} {is is' : List Nat} {x : CoreDbg} (h : CoreDbg.deserialize c w len is = .ok (x, is')) :
    is'.length ≤ is.length := by
  unfold CoreDbg.deserialize at h
  obtain ⟨⟨_, is1⟩, h1, h⟩ := bind_eq_ok h
  obtain ⟨_, _, h⟩ := bind_eq_ok h
  obtain ⟨⟨_, is2⟩, h2, h⟩ := bind_eq_ok h
  obtain ⟨_, _, h⟩ := bind_eq_ok h
  obtain ⟨⟨_, is3⟩, h3, h⟩ := bind_eq_ok h
  obtain ⟨⟨_, is4⟩, h4, h⟩ := bind_eq_ok h
  obtain ⟨_, _, h⟩ := bind_eq_ok h
  obtain ⟨⟨_, is5⟩, h5, h⟩ := bind_eq_ok h
  cases h
  unfold coreDeserialize at h5
  obtain ⟨⟨_, is6⟩, h6, h5⟩ := bind_eq_ok h5
  cases h5
  have := takeBytes_len h1
  have := takeBytes_len h2
  have := takeBytes_len h3
  have := plainDeserialize_len _ h4
  have := takeBytes_len h6
  omega

/-- reading a group takes at least 21 bytes -/
theorem groupDbgRead_len {c : GrpCfg} {x y : GroupDbg} {bpg qw vw : Nat} {is is' : List Nat}
    (h : x.deserialize c bpg qw vw is = .ok (y, is')) : 21 + is'.length ≤ is.length := by
  unfold GroupDbg.deserialize at h
  obtain ⟨⟨_, is1⟩, h1, h⟩ := bind_eq_ok h
  obtain ⟨⟨_, is2⟩, h2, h⟩ := bind_eq_ok h
  obtain ⟨⟨_, is3⟩, h3, h⟩ := bind_eq_ok h
  obtain ⟨⟨_, is4⟩, h4, h⟩ := bind_eq_ok h
  obtain ⟨⟨_, is5⟩, h5, h⟩ := bind_eq_ok h
  have := takeBytes_len h1
  have := wordsRead_len _ h2
  have := takeBytes_len h3
  have := takeBytes_len h4
  have := takeBytes_len h5
  simp only at h
  split at h
  · cases h
    omega
  · obtain ⟨⟨_, is6⟩, h6, h⟩ := bind_eq_ok h
    obtain ⟨⟨_, is7⟩, h7, h⟩ := bind_eq_ok h
    obtain ⟨⟨_, is8⟩, h8, h⟩ := bind_eq_ok h
    cases h
    have := borderRead_len _ _ h6
    have : is7.length ≤ is6.length := coreDbgRead_len h7
    have : is8.length ≤ is7.length := coreDbgRead_len h8
    show 21 + is8.length ≤ _
    omega

theorem deserGroupsDbg_len {c : GrpCfg} {d : Dim} : ∀ (n j : Nat) {s s' : GrpDbg} {is is' : List Nat},
    GrpDbg.deserGroups c d j n s is = .ok (s', is') → 21 * n + is'.length ≤ is.length := by
  intro n
  induction n with
  | zero => intro j s s' is is' h; cases h; omega
  | succ n ih =>
    intro j s s' is is' h
    unfold GrpDbg.deserGroups at h
    obtain ⟨x, _, h⟩ := bind_eq_ok h
    obtain ⟨⟨y, is1⟩, h1, h⟩ := bind_eq_ok h
    have := groupDbgRead_len h1
    have := ih (j + 1) h
    omega

theorem deserSizesDbg_len : ∀ (bs : List Nat) {s s' : GrpDbg} {is is' : List Nat}, GrpDbg.deserSizes bs s is = .ok (s', is') →
    is.length = 4 * bs.length + is'.length := by
  intro bs
  induction bs with
  | nil => intro s s' is is' h; cases h; simp
  | cons b bs ih =>
    intro s s' is is' h
    unfold GrpDbg.deserSizes at h
    obtain ⟨r, _, h⟩ := bind_eq_ok h
    obtain ⟨⟨x, is1⟩, h1, h⟩ := bind_eq_ok h
    rw [takeBytes_len h1, ih h, List.length_cons]
    omega

theorem deserRowsDbg_len {c : GrpDbgCfg} {d : Dim} : ∀ (bs : List Nat) {s s' : GrpDbg} {n n' : Nat} {is is' : List Nat},
    c.deserRows d s n bs is = .ok (s', n', is') → is.length + 16 * n = 16 * n' + is'.length := by
  intro bs
  induction bs with
  | nil => intro s s' n n' is is' h; cases h; omega
  | cons b bs ih =>
    intro s s' n n' is is' h
    unfold GrpDbgCfg.deserRows at h
    obtain ⟨r, _, h⟩ := bind_eq_ok h
    simp only at h
    split at h
    · exact ih h
    · obtain ⟨⟨ks, is1⟩, h1, h⟩ := bind_eq_ok h
      obtain ⟨⟨vs, is2⟩, h2, h⟩ := bind_eq_ok h
      obtain ⟨x, _, h⟩ := bind_eq_ok h
      obtain ⟨_, _, h⟩ := bind_eq_ok h
      have e1 := plainDeserialize_len _ h1
      have e2 := plainDeserialize_len _ h2
      have e3 : is2.length + 16 * (n + r.size) = 16 * n' + is'.length := ih h
      simp only [show 64 / 8 = 8 by rfl] at e1 e2
      omega

/-- what a debug build that reads a file without failing consumes behind the header -/
theorem grpDbgRead_len {c : GrpDbgCfg} {hk : HashKind} {t0 t' : Tab GrpDbg Unit} {kw vw tb el bpg : Nat} {r rest : List Nat}
    (h1 : kw < 256) (h2 : vw < 256) (h3 : tb < 64) (h0 : tb ≠ 0) (h4 : el < 2 ^ 64) (he : el ≠ 0) (h5 : bpg < 256)
    (h : c.deserialize hk t0 (toBytes 1 kw ++ toBytes 1 vw ++ toBytes 1 tb ++ toBytes 8 el ++ toBytes 1 bpg ++ r) = .ok (t', rest)) :
    21 * (2 ^ tb / bpg + 1) + 4 * 2 ^ tb + 16 * el + rest.length ≤ r.length := by
  have e1 : shl64 1 tb = .ok (2 ^ tb) := by
    unfold shl64
    rw [if_pos h3, Nat.shiftLeft_eq, Nat.one_mul, Nat.mod_eq_of_lt (Nat.pow_lt_pow_right (by omega) h3)]
  simp only [List.append_assoc] at h
  unfold GrpDbgCfg.deserialize at h
  simp only [takeBytes_append _ _ (toBytes_length _ _), ok_bind, ofBytes1 h1, ofBytes1 h2, ofBytes1 (show tb < 256 by omega),
    ofBytes8 h4, ofBytes1 h5, if_neg he, e1] at h
  obtain ⟨_, _, h⟩ := bind_eq_ok h
  obtain ⟨t1, g1, h⟩ := bind_eq_ok h
  obtain ⟨f1, f3, f4⟩ := reserve_elems rfl (reserveBits_pow h3) g1
  have f3 : t1.elems = el := f3
  have f4 : t1.bpg = bpg := f4
  have hbc : t1.bucketCount = 2 ^ tb := by unfold Tab.bucketCount; rw [f1, if_neg h0]
  obtain ⟨_, _, h⟩ := bind_eq_ok h
  obtain ⟨_, _, h⟩ := bind_eq_ok h
  obtain ⟨_, _, h⟩ := bind_eq_ok h
  obtain ⟨⟨s1, is1⟩, g2, h⟩ := bind_eq_ok h
  obtain ⟨⟨s2, is2⟩, g3, h⟩ := bind_eq_ok h
  obtain ⟨_, _, h⟩ := bind_eq_ok h
  obtain ⟨⟨s3, n, is3⟩, g4, h⟩ := bind_eq_ok h
  obtain ⟨_, g5, h⟩ := bind_eq_ok h
  cases h
  have hn : t1.elems = n := ddcheck_holds g5
  have l1 := deserGroupsDbg_len _ _ g2
  have l2 : is1.length = 4 * (List.range t1.bucketCount).length + is2.length := deserSizesDbg_len _ g3
  have l3 : is2.length + 16 * 0 = 16 * n + is3.length := deserRowsDbg_len _ g4
  have hgc : grpCount t1 = 2 ^ tb / bpg + 1 := by unfold grpCount; rw [f1, if_neg h0, hbc, f4]
  rw [hgc] at l1
  rw [List.length_range, hbc] at l2
  show _ + is3.length ≤ _
  omega

end SC
