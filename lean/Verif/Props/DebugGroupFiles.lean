import Verif.Group.DebugFiles
import Verif.Props.DebugGroupSerial
import Verif.Props.Format
/-!
# Files of debug and release builds of `group_chaining_table`: C101
-/
namespace SC

variable {g c : GrpCfg} {hk : HashKind} {kw vw : Nat}

theorem HashKind.remainder_lt (h : hk.Supports kw 64 (grpIni kw)) {tb : Nat} (h1 : 1 ≤ tb) (h2 : tb ≤ hk.width kw - 1) (hx : hk ≠ .splitMix ∨ kw < 64) :
    (hk.mapping kw).remainderWidth tb < 64 := by
  cases hk with
  | xorshift s =>
    have h2 : tb ≤ kw - 1 := h2
    have h3 : kw ≤ 64 := h.2.1
    rw [HashKind.mapping, bij_remainderWidth h3 (by omega)]
    omega
  | multiplicative s =>
    have h2 : tb ≤ kw - 1 := h2
    have h3 : kw ≤ 64 := h.2.1
    rw [HashKind.mapping, bij_remainderWidth h3 (by omega)]
    omega
  | splitMix =>
    rcases hx with hx | hx
    · exact absurd rfl hx
    · exact hx

/-- **C101**: if a release build has written a non-empty table, a debug build that reads the file does not stop at its end: it fails or
consumes bytes of the following data `tail` (at least one of quotients and values has less than 64 bits). -/
theorem C101_debug_reads_release (h : GrpOK hk kw vw) (hw : hk ≠ .splitMix ∨ kw < 64 ∨ vw < 64) {t : Tab GrpStore Unit} {m : FMap}
    (ht : GrpReach c hk kw vw t m) (hne : t.size ≠ 0) (hsz : t.size < 2 ^ 64) {bytes : List Nat} (hb : grpSerialize c hk t = .ok bytes)
    {t0 t' : Tab GrpDbg Unit} {tail rest : List Nat} (hd : (grpDbgCfg g hk).deserialize hk t0 (bytes ++ tail) = .ok (t', rest)) :
    rest.length < tail.length := by
  have hC := h.coveredE (c := c) (e := c.flat) (sp := false) (by simp)
  have hs := ht.sem h
  obtain ⟨bytes', row, e1, e2, _, e4, body, e5, e6⟩ := C92_group_format h ht
  rw [hb] at e1
  cases e1
  have hel : ((List.range (2 ^ t.tb)).flatMap row).length = t.size := by
    obtain ⟨l, l1, l2, l3⟩ := hs.pairs hC.laws hC.noOverflow
    rw [grpMapE, pairs_withErase, e2] at l1
    cases l1
    rw [hs.size, l3.size]
  have hlive : 1 ≤ t.tb ∧ t.tb ≤ hk.width kw - 1 ∧ t.tb < 64 ∧ 1 ≤ t.bpg ∧ t.bpg ≤ 64 ∧ (hk.mapping kw).remainderWidth t.tb ≤ 64 := by
    obtain ⟨l, hi, _⟩ := hs
    rcases hi with ⟨_, _, _, _, _, h6, _⟩ | ⟨cont, o, full, hl, _⟩
    · exact absurd h6 hne
    · exact ⟨hl.tb_pos hC.laws, hl.hi, Nat.lt_of_le_of_lt hl.hi hC.laws.hi_lt, hl.bpg_pos, hl.bpg_le, (hC.laws.qw_le _ hl.lo hl.hi).2⟩
  obtain ⟨p1, p2, p3, p4, p5, p6⟩ := hlive
  have hkw : kw ≤ 64 := hC.laws.kw_le
  have hvw := h.vw_le
  have hq : (hk.mapping kw).remainderWidth t.tb < 64 ∨ vw < 64 := by
    rcases hw with hw | hw | hw
    · exact .inl (HashKind.remainder_lt h.hash p1 p2 (.inl hw))
    · exact .inl (HashKind.remainder_lt h.hash p1 p2 (.inr hw))
    · exact .inr hw
  have hn : (List.range (2 ^ t.tb)).flatMap row ≠ [] := by
    intro hn
    rw [hn] at hel
    exact hne hel.symm
  rw [if_neg hn] at e6
  have l1 := groupBlocks_len p6 hvw hq e6
  have l2 : rowSum row ((0 + (2 ^ t.tb / t.bpg + 1)) * t.bpg) = t.size := by
    have h1 : 2 ^ t.tb ≤ (2 ^ t.tb / t.bpg + 1) * t.bpg := by
      have h2 := Nat.div_add_mod (2 ^ t.tb) t.bpg
      have h3 := Nat.mod_lt (2 ^ t.tb) p4
      rw [Nat.succ_mul, Nat.mul_comm]
      omega
    have h4 : (0 + (2 ^ t.tb / t.bpg + 1)) * t.bpg = 2 ^ t.tb + ((2 ^ t.tb / t.bpg + 1) * t.bpg - 2 ^ t.tb) := by
      rw [Nat.zero_add]; omega
    rw [h4, rowSum_out e4]
    exact hel
  rw [l2] at l1
  rw [e5, hel, List.append_assoc _ body tail] at hd
  have l3 := grpDbgRead_len (by omega) (by omega) p3 (by omega) hsz hne (by omega) hd
  rw [List.length_append] at l3
  have l4 : 2 ≤ 2 ^ t.tb := Nat.pow_le_pow_right (n := 2) (i := 1) (by omega) p1
  have l5 : (2 ^ t.tb / t.bpg + 1) * (20 + 8 * (t.bpg / 64)) < 21 * (2 ^ t.tb / t.bpg + 1) + 4 * 2 ^ t.tb := by
    by_cases h64 : t.bpg = 64
    · rw [h64]
      omega
    · rw [show t.bpg / 64 = 0 by omega]
      omega
  omega

/-- the example table of the release build meets the hypotheses -/
example : ∃ t m bytes, GrpReach grpEx (.xorshift 64) 11 13 t m ∧ t.size = 40 ∧ grpSerialize grpEx (.xorshift 64) t = .ok bytes := by
  obtain ⟨t, ⟨as, ht⟩, _, h2, _⟩ := grpExAfter
  have hr := GrpReach.new.run grpExOps_valid ht
  obtain ⟨bytes, hb, _⟩ := C45_group_serialize grpExOK hr (by omega)
  exact ⟨t, _, bytes, hr, h2, hb⟩

/-- **C101** (the file alone): an assertion of the debug build fails or the file ends too early. -/
theorem C101_debug_rejects_release (h : GrpOK hk kw vw) (hw : hk ≠ .splitMix ∨ kw < 64 ∨ vw < 64) {t : Tab GrpStore Unit} {m : FMap}
    (ht : GrpReach c hk kw vw t m) (hne : t.size ≠ 0) (hsz : t.size < 2 ^ 64) :
    ∃ bytes, grpSerialize c hk t = .ok bytes ∧ ∀ t0, ∃ f, (grpDbgCfg g hk).deserialize hk t0 bytes = .error f := by
  obtain ⟨bytes, hb, _⟩ := C45_group_serialize h ht hsz
  refine ⟨bytes, hb, fun t0 => ?_⟩
  cases hd : (grpDbgCfg g hk).deserialize hk t0 bytes with
  | error f => exact ⟨f, rfl⟩
  | ok r =>
    have := C101_debug_reads_release (g := g) h hw ht hne hsz hb (tail := []) (by rw [List.append_nil]; exact hd)
    exact absurd this (Nat.not_lt_zero _)

/-- what a release build has after it has read the file of a debug build -/
def readByRelease (ops : List MapOp) : Res (Tab GrpStore Unit) := do
  let (t, _) ← Tab.run grpDbgEx (Tab.new grpDbgEx 11 13) ops
  let bytes ← (grpDbgCfg grpEx (.xorshift 64)).serialize t
  let (t', _) ← grpDeserialize grpEx (.xorshift 64) (Tab.new (grpMap grpEx (.xorshift 64)) 11 13) bytes
  return t'

/-- **C101** (the other direction): a release build cannot read every file of a debug build. -/
theorem C101_release_reads_debug_not : ¬ ∀ ops : List MapOp, (∀ op ∈ ops, GrpDbgValid (.xorshift 64) 11 13 op) →
    ∃ t, readByRelease ops = .ok t := by
  intro hall
  obtain ⟨t, ht⟩ := hall [.insert 5 6] (by decide +kernel)
  have hw : (match readByRelease [.insert 5 6] with
    | .ok _ => false
    | .error _ => true) = true := by decide +kernel
  rw [ht] at hw
  cases hw

/-- the debug build writes this file and reads it -/
example : ∃ t, Tab.run grpDbgEx (Tab.new grpDbgEx 11 13) [.insert 5 6] = .ok (t, FMap.empty.run (fun v => v % 2 ^ 13) [.insert 5 6]) ∧
    ∃ bytes, (grpDbgCfg grpEx (.xorshift 64)).serialize t = .ok bytes ∧
      ∃ t', (grpDbgCfg grpEx (.xorshift 64)).deserialize (.xorshift 64) (Tab.new grpDbgEx 11 13) bytes = .ok (t', []) := by
  have hv : ∀ op ∈ [MapOp.insert 5 6], GrpDbgValid (.xorshift 64) 11 13 op := by decide +kernel
  obtain ⟨t, ht⟩ := (C81_group_debug_semantics (g := grpEx) grpExOK _ hv).2
  have hs : t.size < 2 ^ 64 := by
    have := (GrpDbgReach.new.run hv ht).sem grpExOK
    rw [this.size]
    decide +kernel
  obtain ⟨bytes, h1, h2⟩ := C100_group_debug_serialize grpExOK (GrpDbgReach.new.run hv ht) hs
  obtain ⟨t', h3, _⟩ := h2 (Tab.new grpDbgEx 11 13) []
  rw [List.append_nil] at h3
  exact ⟨t, ht, bytes, h1, t', h3⟩

/-- **C101** (no entries): the file of a table without entries is read by the other build, which gets a table without entries and with the
same widths and group size, and consumes exactly this file. -/
theorem C101_empty (h : GrpOK hk kw vw) :
    (∀ (t : Tab GrpStore Unit) m, GrpReach c hk kw vw t m → t.size = 0 → ∃ bytes, grpSerialize c hk t = .ok bytes ∧ ∀ t0 rest, ∃ t',
      (grpDbgCfg g hk).deserialize hk t0 (bytes ++ rest) = .ok (t', rest) ∧ t'.size = 0 ∧ t'.kw = kw ∧ t'.vw = vw ∧ t'.bpg = t.bpg) ∧
    (∀ (t : Tab GrpDbg Unit) m, GrpDbgReach g hk kw vw t m → t.size = 0 → ∃ bytes, (grpDbgCfg g hk).serialize t = .ok bytes ∧
      ∀ t0 rest, ∃ t', grpDeserialize c hk t0 (bytes ++ rest) = .ok (t', rest) ∧ t'.size = 0 ∧ t'.kw = kw ∧ t'.vw = vw ∧ t'.bpg = t.bpg) := by
  have hn := h.dbgHash
  have hv := h.vw_le
  refine ⟨fun t m ht h0 => ?_, fun t m ht h0 => ?_⟩
  · have hC := h.coveredE (c := c) (e := c.flat) (sp := false) (by simp)
    have hs := ht.sem h
    have hkw : kw ≤ 64 := hC.laws.kw_le
    have h1 : t.kw = kw := hs.widths.1
    have h2 : t.vw = vw := hs.widths.2
    have h3 : t.bpg ≤ 64 := by
      obtain ⟨l, hi, _⟩ := hs
      rcases hi with ⟨_, _, _, h4, _⟩ | ⟨cont, o, full, hl, _⟩
      · exact h4
      · exact hl.bpg_le
    have he : t.elems = 0 := h0
    refine ⟨_, by unfold grpSerialize; rw [if_pos he]; rfl, fun t0 rest =>
      ⟨{ t0.clear (grpDbg g hk) with kw := t.kw, vw := t.vw, elems := 0, bpg := t.bpg }, ?_, rfl, h1, h2, rfl⟩⟩
    rw [← h1] at hn
    unfold GrpDbgCfg.deserialize
    rw [he]
    simp only [List.append_assoc, takeBytes_append _ _ (toBytes_length _ _), ok_bind, ofBytes1 (show t.kw < 256 by omega),
      ofBytes1 (show t.vw < 256 by omega), ofBytes8 (show 0 < 2 ^ 64 by omega), ofBytes1 (show t.bpg < 256 by omega),
      if_true, pure_eq_ok, hn]
  · obtain ⟨L, _⟩ := h.dbgFlat (g := g)
    have hs := ht.sem h
    have hkw : kw ≤ 64 := L.kw_le
    have h1 : t.kw = kw := hs.widths.1
    have h2 : t.vw = vw := hs.widths.2
    have h3 : t.bpg ≤ 64 := by
      obtain ⟨l, hi, _⟩ := hs
      rcases hi with ⟨_, _, _, h4, _⟩ | ⟨cont, o, full, hl, _⟩
      · exact h4
      · exact hl.bpg_le
    have he : t.elems = 0 := h0
    refine ⟨_, by unfold GrpDbgCfg.serialize; rw [if_pos he]; rfl, fun t0 rest =>
      ⟨{ t0.clear (grpMap c hk) with kw := t.kw, vw := t.vw, elems := 0, bpg := t.bpg }, ?_, rfl, h1, h2, rfl⟩⟩
    unfold grpDeserialize
    rw [he]
    simp only [List.append_assoc, takeBytes_append _ _ (toBytes_length _ _), ok_bind, ofBytes1 (show t.kw < 256 by omega),
      ofBytes1 (show t.vw < 256 by omega), ofBytes8 (show 0 < 2 ^ 64 by omega), ofBytes1 (show t.bpg < 256 by omega),
      if_true, pure_eq_ok]

/-- a table whose only entry has been erased -/
example : ∃ t m, GrpReach grpEx (.xorshift 64) 11 13 t m ∧ t.size = 0 ∧ t.bucketCount ≠ 0 := by
  have hv : ∀ op ∈ [MapOp.insert 5 6, .erase 5], GrpValid (.xorshift 64) 11 op := by decide +kernel
  have h : (match Tab.run (grpMap grpEx (.xorshift 64)) (Tab.new (grpMap grpEx (.xorshift 64)) 11 13) [.insert 5 6, .erase 5] with
    | .ok (t, _) => t.size == 0 && t.bucketCount != 0
    | .error _ => false) = true := by decide +kernel
  cases hr : Tab.run (grpMap grpEx (.xorshift 64)) (Tab.new (grpMap grpEx (.xorshift 64)) 11 13) [.insert 5 6, .erase 5] with
  | error e => rw [hr] at h; cases h
  | ok r =>
    rw [hr] at h
    simp only [Bool.and_eq_true, beq_iff_eq, bne_iff_ne] at h
    exact ⟨r.1, _, GrpReach.new.run hv hr, h.1, h.2⟩

end SC
