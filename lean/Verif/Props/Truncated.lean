import Verif.Reader
import Verif.Props.FormatRead
import Verif.Props.GroupFormatRead
import Verif.Props.DebugSerial
import Verif.Props.DebugGroupSerial
import Verif.Props.ArraySerial
/-!
# Truncated files: C104

`.error .uninit` of `takeBytes` stands for a read that hits the end of the stream. The code does not test the stream, so that it would go on with whatever
its variables contained before; but the stream is in the failed state afterwards, and a caller who tests it notices that the file is incomplete.
-/
namespace SC
variable {KB VB : Type}

theorem reads_tail {α : Type} {f : List Nat → Res (α × List Nat)} (h : Reads f) {bytes : List Nat} {x : α} (hf : f (bytes ++ []) = .ok (x, [])) :
    ∀ n < bytes.length, f (bytes.take n) = .error .uninit := fun n hn => h.truncated (by rw [List.append_nil] at hf; exact hf) hn

/-- **C104** for `separate_chaining_table`: a file that it has written and that is cut off anywhere cannot be read, a read hits the end of the stream. -/
theorem C104_separate {p : SepCfg KB VB} {hk : HashKind} {tr : Nat → Nat → Nat} {W kw vw : Nat} (h : SepOK p hk tr W kw vw) {t : Tab (SepStore KB VB) Unit} {m : FMap}
    (ht : SepReach p hk tr W kw vw t m) (hsz : t.size < 2 ^ 64) :
    ∃ bytes, p.serialize hk t = .ok bytes ∧ ∀ t0, ∀ n < bytes.length, p.deserialize hk t0 (bytes.take n) = .error .uninit := by
  obtain ⟨bytes, h1, h2⟩ := C32_separate_serialize h ht hsz
  refine ⟨bytes, h1, fun t0 => ?_⟩
  obtain ⟨t', h3, _⟩ := h2 t0 []
  exact reads_tail (reads_sep h.keys.reads h.vals.reads hk t0) h3

/-- the same for all files of the format, see C94 -/
theorem C104_separate_file {p : SepCfg KB VB} {hk : HashKind} {tr : Nat → Nat → Nat} {W kw vw : Nat} {fk fv : Fmt} (h : SepOK p hk tr W kw vw)
    (hf : KeyFmt KB p.kops W fk) (hf' : ValueFmt VB p.vops tr fv)
    {tb : Nat} {rows : List (List (Nat × Nat))} {bytes : List Nat} (hfile : SepFile (hk.mapping kw) fk fv kw vw tb rows bytes)
    (htb : tb = 0 ∨ (hk.lo kw W ≤ tb ∧ tb ≤ hk.width kw - 1)) (hmax : ∀ row ∈ rows, row.length ≤ p.maxBucket)
    (hkeys : ∀ e ∈ rows.flatten, e.1 < 2 ^ kw ∧ tr vw e.2 = e.2) (hnd : (rows.flatten.map Prod.fst).Nodup)
    (hsz : rows.flatten.length < 2 ^ 64) (t0 : Tab (SepStore KB VB) Unit) :
    ∀ n < bytes.length, p.deserialize hk t0 (bytes.take n) = .error .uninit := by
  obtain ⟨t', h3, _⟩ := C94_read_file h hf hf' hfile htb hmax hkeys hnd hsz t0 []
  exact reads_tail (reads_sep h.keys.reads h.vals.reads hk t0) h3

/-- no file is the beginning of another one, whatever the widths are -/
theorem C104_separate_prefix {p : SepCfg KB VB} {hk : HashKind} {tr : Nat → Nat → Nat} {W kw vw kw' vw' : Nat} (h : SepOK p hk tr W kw vw) (h' : SepOK p hk tr W kw' vw')
    {t t' : Tab (SepStore KB VB) Unit} {m m' : FMap} (ht : SepReach p hk tr W kw vw t m) (ht' : SepReach p hk tr W kw' vw' t' m')
    (hsz : t.size < 2 ^ 64) (hsz' : t'.size < 2 ^ 64) {a b : List Nat} (ha : p.serialize hk t = .ok a) (hb : p.serialize hk t' = .ok b) (hp : a <+: b) : a = b := by
  obtain ⟨_, h1, h2⟩ := C32_separate_serialize h ht hsz
  obtain ⟨_, h3, h4⟩ := C32_separate_serialize h' ht' hsz'
  cases h1.symm.trans ha
  cases h3.symm.trans hb
  obtain ⟨x, e1, _⟩ := h2 t []
  obtain ⟨y, e2, _⟩ := h4 t []
  rw [List.append_nil] at e1 e2
  exact (reads_sep h.keys.reads h.vals.reads hk t).prefix e1 e2 hp

/-- **C104** for `group_chaining_table` -/
theorem C104_group {c : GrpCfg} {hk : HashKind} {kw vw : Nat} (h : GrpOK hk kw vw) {t : Tab GrpStore Unit} {m : FMap} (ht : GrpReach c hk kw vw t m)
    (hsz : t.size < 2 ^ 64) :
    ∃ bytes, grpSerialize c hk t = .ok bytes ∧ ∀ t0, ∀ n < bytes.length, grpDeserialize c hk t0 (bytes.take n) = .error .uninit := by
  obtain ⟨bytes, h1, h2⟩ := C45_group_serialize h ht hsz
  refine ⟨bytes, h1, fun t0 => ?_⟩
  obtain ⟨t', h3, _⟩ := h2 t0 []
  exact reads_tail (reads_grp c hk t0) h3

/-- the same for all files of the format, see C99 -/
theorem C104_group_file {c : GrpCfg} {hk : HashKind} {kw vw : Nat} (h : GrpOK hk kw vw) {tb bpg : Nat} {row : Nat → List (Nat × Nat)} {bytes : List Nat}
    (hfile : GrpFile (hk.mapping kw) kw vw tb bpg row bytes) (hbpg : 1 ≤ bpg ∧ bpg ≤ 64) {l : List (Nat × Nat)}
    (hl : l = (List.range (2 ^ tb)).flatMap row) (htb : l = [] ∨ (hk.lo kw 64 ≤ tb ∧ tb ≤ hk.width kw - 1))
    (hkeys : ∀ x ∈ l, x.1 < 2 ^ kw ∧ x.2 < 2 ^ vw) (hnd : (l.map Prod.fst).Nodup) (hsz : l.length < 2 ^ 64) (t0 : Tab GrpStore Unit) :
    ∀ n < bytes.length, grpDeserialize c hk t0 (bytes.take n) = .error .uninit := by
  obtain ⟨t', h3, _⟩ := C99_group_read_file (c := c) h hfile hbpg hl htb hkeys hnd hsz t0 []
  exact reads_tail (reads_grp c hk t0) h3

/-- no file is the beginning of another one -/
theorem C104_group_prefix {c : GrpCfg} {hk : HashKind} {kw vw kw' vw' : Nat} (h : GrpOK hk kw vw) (h' : GrpOK hk kw' vw') {t t' : Tab GrpStore Unit} {m m' : FMap}
    (ht : GrpReach c hk kw vw t m) (ht' : GrpReach c hk kw' vw' t' m') (hsz : t.size < 2 ^ 64) (hsz' : t'.size < 2 ^ 64) {a b : List Nat}
    (ha : grpSerialize c hk t = .ok a) (hb : grpSerialize c hk t' = .ok b) (hp : a <+: b) : a = b := by
  obtain ⟨_, h1, h2⟩ := C45_group_serialize h ht hsz
  obtain ⟨_, h3, h4⟩ := C45_group_serialize h' ht' hsz'
  cases h1.symm.trans ha
  cases h3.symm.trans hb
  obtain ⟨x, e1, _⟩ := h2 t []
  obtain ⟨y, e2, _⟩ := h4 t []
  rw [List.append_nil] at e1 e2
  exact (reads_grp c hk t).prefix e1 e2 hp

/-- **C104** for `separate_chaining_table` in a debug build -/
theorem C104_separate_debug {k : DbgCfg KB} {vops : BucketOps VB} {vnull : VB → Bool} {strat : Strategy} {maxBucket : Nat} {hk : HashKind} {kbits vbits : Nat}
    {tr : Nat → Nat → Nat} {W kw vw : Nat} (h : SepDbgTabOK k vops vnull maxBucket hk kbits vbits tr W kw vw)
    {t : Tab (SepDbg (DbgB KB) VB) Unit} {m : FMap} (ht : DbgReach k vops vnull strat maxBucket hk kbits tr W kw vw t m) (hsz : t.size < 2 ^ 64)
    (hst : strat = .arbitrary → t.bucketCount ≠ 0) :
    ∃ bytes, (dbgCfg k vops vnull strat maxBucket hk kbits).serialize t = .ok bytes ∧
      ∀ t0, ∀ n < bytes.length, (dbgCfg k vops vnull strat maxBucket hk kbits).deserialize hk t0 (bytes.take n) = .error .uninit := by
  obtain ⟨bytes, h1, h2⟩ := C95_debug_serialize_partial h ht hsz
  refine ⟨bytes, h1, fun t0 => ?_⟩
  obtain ⟨t', h3, _⟩ := h2 hst t0 []
  exact reads_tail (reads_sepDbg (c := dbgCfg k vops vnull strat maxBucket hk kbits) h.keys.reads h.vals.reads hk t0) h3

/-- **C104** for `group_chaining_table` in a debug build -/
theorem C104_group_debug {g : GrpCfg} {hk : HashKind} {kw vw : Nat} (h : GrpOK hk kw vw) {t : Tab GrpDbg Unit} {m : FMap} (ht : GrpDbgReach g hk kw vw t m)
    (hsz : t.size < 2 ^ 64) :
    ∃ bytes, (grpDbgCfg g hk).serialize t = .ok bytes ∧ ∀ t0, ∀ n < bytes.length, (grpDbgCfg g hk).deserialize hk t0 (bytes.take n) = .error .uninit := by
  obtain ⟨bytes, h1, h2⟩ := C100_group_debug_serialize h ht hsz
  refine ⟨bytes, h1, fun t0 => ?_⟩
  obtain ⟨t', h3, _⟩ := h2 t0 []
  exact reads_tail (reads_grpDbg _ hk t0) h3

/-- **C104** for `array_overflow` -/
theorem C104_array {a : ArrEnv} (hk : 8 ∣ a.ks) (hv : 8 ∣ a.vs) {o : ArrOv} (h : ArrReach a o) :
    ∃ bytes, o.serialize a = .ok bytes ∧ ∀ o0 : ArrOv, ∀ n < bytes.length, o0.deserialize a (bytes.take n) = .error .uninit := by
  obtain ⟨l, bytes, _, h1, h2⟩ := C97_array_serialize_partial hk hv h
  refine ⟨bytes, h1, fun o0 => ?_⟩
  obtain ⟨o', h3, _⟩ := h2 o0 []
  exact reads_tail (reads_array a o0) h3

/-! ## Examples -/

/-- a table with 60 pairs: all of the many prefixes of its file -/
example : ∃ t bytes, exCfg.serialize (.xorshift 16) t = .ok bytes ∧ t.size = 60 ∧ ∀ t0, ∀ n < bytes.length, exCfg.deserialize (.xorshift 16) t0 (bytes.take n) = .error .uninit := by
  obtain ⟨t, ⟨as, ht⟩, _, h2⟩ := exAfter
  obtain ⟨bytes, g1, g2⟩ := C104_separate exOK (SepReach.new.run exOps_valid ht) (by omega)
  exact ⟨t, bytes, g1, h2, g2⟩

/-- a table with 40 pairs -/
example : ∃ t bytes, grpSerialize grpEx (.xorshift 64) t = .ok bytes ∧ t.size = 40 ∧ ∀ t0, ∀ n < bytes.length, grpDeserialize grpEx (.xorshift 64) t0 (bytes.take n) = .error .uninit := by
  obtain ⟨t, ⟨as, ht⟩, _, h2, _⟩ := grpExAfter
  obtain ⟨bytes, g1, g2⟩ := C104_group grpExOK (GrpReach.new.run grpExOps_valid ht) (by omega)
  exact ⟨t, bytes, g1, h2, g2⟩

/-- files of the two tables of the debug builds, and of an overflow table with three pairs -/
example : (∃ t bytes, (dbgCfg (dbgPlain 16 12345) (dbgOps (dbgPlain 32 678)) (fun b => b.data.isNone) .arbitrary 3 (.xorshift 16) 64).serialize t = .ok bytes ∧ t.size = 60) ∧
    (∃ t bytes, (grpDbgCfg grpEx (.xorshift 64)).serialize t = .ok bytes ∧ t.size = 2) ∧ ∃ o bytes, ArrReach arrEx o ∧ o.elems = 3 ∧ o.serialize arrEx = .ok bytes := by
  refine ⟨?_, ?_, ?_⟩
  · obtain ⟨t, as, h1, h2, h3⟩ := dbgExAfter
    obtain ⟨bytes, g1, _⟩ := C104_separate_debug dbgExOK (DbgReach.new.run dbgExOps_valid h1) (by omega) (by omega)
    exact ⟨t, bytes, g1, h3⟩
  · obtain ⟨t, as, ht, _, h2, _⟩ := grpDbgExAfter
    obtain ⟨bytes, g1, _⟩ := C104_group_debug grpExOK (GrpDbgReach.new.run grpDbgExShort_valid ht) (by omega)
    exact ⟨t, bytes, g1, h2⟩
  · obtain ⟨o, h1, h2, h3⟩ := arrEx_reach
    obtain ⟨bytes, g1, _⟩ := C104_array (by decide) (by decide) h1
    exact ⟨o, bytes, h1, h2, g1⟩

/-- a file of the format -/
example : ∀ n < twoFile.length, grpDeserialize grpEx (.xorshift 64) (Tab.new (grpMap grpEx (.xorshift 64)) 5 5) (twoFile.take n) = .error .uninit :=
  C104_group_file (c := grpEx) grpExOK twoFile_format (by decide) (l := [(5, 258), (6, 7)])
    (by decide +kernel) (by decide +kernel) (by decide +kernel) (by decide +kernel) (by decide) _

/-- the file of the table with 60 pairs is not the beginning of that of a new table -/
example : ∃ t t' a b, exCfg.serialize (.xorshift 16) t = .ok a ∧ exCfg.serialize (.xorshift 16) t' = .ok b ∧ ¬ a <+: b := by
  obtain ⟨t, ⟨as, ht⟩, _, h2⟩ := exAfter
  obtain ⟨a, g1, _⟩ := C104_separate exOK (SepReach.new.run exOps_valid ht) (by omega)
  have hn : (Tab.new (sepMap exCfg (.xorshift 16)) 10 20).size < 2 ^ 64 := by decide
  obtain ⟨b, g3, _⟩ := C104_separate exOK SepReach.new hn
  refine ⟨t, _, a, b, g1, g3, fun hp => ?_⟩
  cases C104_separate_prefix exOK exOK (SepReach.new.run exOps_valid ht) SepReach.new (by omega) hn g1 g3 hp
  obtain ⟨_, k1, k2⟩ := C32_separate_serialize exOK (SepReach.new.run exOps_valid ht) (by omega)
  obtain ⟨_, k3, k4⟩ := C32_separate_serialize exOK SepReach.new hn
  cases k1.symm.trans g1
  cases k3.symm.trans g3
  obtain ⟨x, e1, e2, _⟩ := k2 t []
  obtain ⟨y, e3, e4, _⟩ := k4 t []
  cases e1.symm.trans e3
  have := e2.2.2.1
  have := e4.2.2.1
  have : (Tab.new (sepMap exCfg (.xorshift 16)) 10 20).size = 0 := rfl
  omega

end SC
