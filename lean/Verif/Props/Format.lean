import Verif.Group.Format
import Verif.Props.Serial
import Verif.Props.GroupSerial
/-!
# Properties of the bytes that `serialize` writes: C92, C93
-/
namespace SC

variable {KB VB : Type} {p : SepCfg KB VB} {hk : HashKind} {tr : Nat → Nat → Nat} {W kw vw : Nat} {fk fv : Fmt}

/-! ## C92 -/

/-- **C92**: the bytes that a `separate_chaining_table` writes are the header, the sizes of the buckets and, for every bucket that is
not empty, the quotients of its keys and then its values.  The buckets in order hold the pairs in the order of iteration. -/
theorem C92_separate_format (h : SepOK p hk tr W kw vw) (hf : KeyFmt KB p.kops W fk) (hf' : ValueFmt VB p.vops tr fv)
    {t : Tab (SepStore KB VB) Unit} {m : FMap} (ht : SepReach p hk tr W kw vw t m) :
    ∃ bytes rows, p.serialize hk t = .ok bytes ∧ t.pairs (sepMap p hk) = .ok rows.flatten ∧
      SepFile (hk.mapping kw) fk fv kw vw t.tb rows bytes := by
  obtain ⟨P, hP, KRep, VRep, h1, h2, h3⟩ := h.parFmt hf hf'
  obtain ⟨l, hi, _⟩ := ht.sem hP
  obtain ⟨bytes, rows, h4, h5, h6, _⟩ := serialize_format hP h1 h2 h3 hi
  exact ⟨bytes, rows, h4, h5, h6⟩

theorem blocks_length {H : HashMapping} {tb a a' : Nat} {b : Nat} {rows : List (List (Nat × Nat))} {bytes : List Nat}
    (h : Blocks H tb vw (fixedFmt a) (fixedFmt a') b rows bytes) : bytes.length = rows.flatten.length * (a + a') := by
  have e : ∀ (n : Nat) (xs : List Nat), (xs.flatMap (toBytes n)).length = xs.length * n := by
    intro n xs
    induction xs with
    | nil => simp
    | cons x xs ih => rw [List.flatMap_cons, List.length_append, ih, toBytes_length, List.length_cons, Nat.succ_mul]; omega
  induction h with
  | nil => simp
  | empty _ ih => simpa using ih
  | @block b row qs rows kb vb bytes _ hm hk hv _ ih =>
    have hl : row.length = qs.length := by
      have := congrArg List.length hm
      simpa using this
    rw [show kb = _ from hk, show vb = _ from hv, List.length_append, List.length_append, ih, e, e, List.flatten_cons,
      List.length_append, List.length_map, ← hl, Nat.add_mul, Nat.mul_add row.length]

/-- **C92**: without bit packing the file has 11 bytes, one byte per bucket and the bytes of the entries. -/
theorem C92_separate_length {a a' : Nat} (h : SepOK p hk tr W kw vw) (hf : KeyFmt KB p.kops W (fixedFmt a))
    (hf' : ValueFmt VB p.vops tr (fixedFmt a')) {t : Tab (SepStore KB VB) Unit} {m : FMap} (ht : SepReach p hk tr W kw vw t m) :
    ∃ bytes, p.serialize hk t = .ok bytes ∧ bytes.length = 11 + t.bucketCount + t.size * (a + a') := by
  obtain ⟨bytes, rows, h1, h2, h3, _, body, h4, h5⟩ := C92_separate_format h hf hf' ht
  refine ⟨bytes, h1, ?_⟩
  obtain ⟨P, hP⟩ := h.par false
  have hs := ht.sem hP
  obtain ⟨l, g1, g2, _⟩ := hs.pairs hP.laws hP.noOverflow
  rw [h2] at g1
  cases g1
  have hsz : t.size = rows.flatten.length := by
    rcases g2 with ⟨_, _, _, _, _, h6, h7, _⟩ | ⟨c, o, full, hl, hp⟩
    · rw [h7]; exact h6
    · rw [Tab.size, hl.elems, hp.length_eq]
  rw [h4]
  simp only [List.length_append, toBytes_length, List.length_map]
  rw [h3, blocks_length h5, hsz]
  have : t.bucketCount = if t.tb = 0 then 0 else 2 ^ t.tb := rfl
  rw [this]

/-- **C92**: the bytes that a `group_chaining_table` writes are the header and, unless the table is empty, for every group the number of
its entries, the sizes of its buckets in unary, the quotients and the values. -/
theorem C92_group_format {c : GrpCfg} (h : GrpOK hk kw vw) {t : Tab GrpStore Unit} {m : FMap} (ht : GrpReach c hk kw vw t m) :
    ∃ bytes row, grpSerialize c hk t = .ok bytes ∧ t.pairs (grpMap c hk) = .ok ((List.range (2 ^ t.tb)).flatMap row) ∧
      GrpFile (hk.mapping kw) kw vw t.tb t.bpg row bytes := by
  have hC := h.coveredE (c := c) (e := c.flat) (sp := false) (by simp)
  obtain ⟨l, hi, _⟩ := ht.sem h
  exact grpSerialize_format hC.laws (Inv_withErase.mp hi)

example : KeyFmt PlainB exCfg.kops 16 (fixedFmt 2) ∧ ValueFmt PlainB exCfg.vops (fun _ v => v % 2 ^ 32) (fixedFmt 4) :=
  ⟨.plain (s := 16) (by simp), .plain (s := 32) (by simp)⟩

/-- a small table: 3-bit keys 5 and 6 -/
example : (match Tab.run (sepMap exCfg (.xorshift 16)) (Tab.new (sepMap exCfg (.xorshift 16)) 3 20) [.insert 5 258, .insert 6 7] with
    | .ok (t, _) => (match exCfg.serialize (.xorshift 16) t with | .ok bytes => bytes | _ => [])
    | _ => []) = [3, 20, 1, 2, 0, 0, 0, 0, 0, 0, 0, 1, 1, 2, 0, 2, 1, 0, 0, 3, 0, 7, 0, 0, 0] := by decide +kernel

/-! ## C93 -/

/-- bit-packed keys with storage words of 8 bits and plain values; fresh memory contains `junk` -/
def padCfg (junk : Bits) : SepCfg VarB PlainB :=
  { kops := varOps ⟨8, false, junk⟩, vops := plainOps 32, strat := .incremental, maxBucket := 3 }

theorem padCfg_ok (junk : Bits) : SepOK (padCfg junk) (.xorshift 16) (fun _ v => v % 2 ^ 32) 64 10 20 where
  keys := .varwidth (by simp [VarCfg.good]) rfl
  vals := .plain (by simp)
  max := by show 2 ≤ 3; decide
  hash := by
    have : sepIni 10 = 4 := by decide +kernel
    simp [HashKind.Supports, this]
  vw_pos := by decide
  vw_le := by decide

/-- **C93** is false with bit-packed buckets: after the same calls two tables write different bytes, because the unused bits of the last
word of a bucket come from uninitialised memory. -/
theorem C93_separate_not : ¬ ∀ (junk junk' : Bits) (ops : List MapOp), (∀ op ∈ ops, SepValid (.xorshift 16) 64 10 op) →
    ∀ t t' as as', Tab.run (sepMap (padCfg junk) (.xorshift 16)) (Tab.new (sepMap (padCfg junk) (.xorshift 16)) 10 20) ops = .ok (t, as) →
      Tab.run (sepMap (padCfg junk') (.xorshift 16)) (Tab.new (sepMap (padCfg junk') (.xorshift 16)) 10 20) ops = .ok (t', as') →
      (padCfg junk).serialize (.xorshift 16) t = (padCfg junk').serialize (.xorshift 16) t' := by
  intro hall
  have hv : ∀ op ∈ [MapOp.insert 5 6], SepValid (.xorshift 16) 64 10 op := by decide +kernel
  have hw : (match Tab.run (sepMap (padCfg fun _ => false) (.xorshift 16)) (Tab.new (sepMap (padCfg fun _ => false) (.xorshift 16)) 10 20) [.insert 5 6],
      Tab.run (sepMap (padCfg fun _ => true) (.xorshift 16)) (Tab.new (sepMap (padCfg fun _ => true) (.xorshift 16)) 10 20) [.insert 5 6] with
    | .ok (t, _), .ok (t', _) => (match (padCfg fun _ => false).serialize (.xorshift 16) t, (padCfg fun _ => true).serialize (.xorshift 16) t' with
      | .ok x, .ok y => x != y
      | _, _ => false)
    | _, _ => false) = true := by decide +kernel
  cases h1 : Tab.run (sepMap (padCfg fun _ => false) (.xorshift 16)) (Tab.new (sepMap (padCfg fun _ => false) (.xorshift 16)) 10 20) [.insert 5 6] with
  | error e => rw [h1] at hw; cases hw
  | ok r =>
    cases h2 : Tab.run (sepMap (padCfg fun _ => true) (.xorshift 16)) (Tab.new (sepMap (padCfg fun _ => true) (.xorshift 16)) 10 20) [.insert 5 6] with
    | error e => rw [h1, h2] at hw; cases hw
    | ok r' =>
      have e := hall _ _ _ hv r.1 r'.1 r.2 r'.2 h1 h2
      rw [h1, h2] at hw
      simp only [e] at hw
      cases h3 : (padCfg fun _ => true).serialize (.xorshift 16) r'.1 with
      | error e => rw [h3] at hw; cases hw
      | ok x => rw [h3] at hw; simp at hw

/-- the bytes that a group table writes after the calls `ops`, being written and read back, and the calls `ops'` -/
def rewritten (junk : Bits) (ops ops' : List MapOp) : Res (List Nat) := do
  let c : GrpCfg := ⟨true, junk, false⟩
  let g := grpMap c (.xorshift 64)
  let (t, _) ← Tab.run g (Tab.new g 11 63) ops
  let bytes ← grpSerialize c (.xorshift 64) t
  let (t, _) ← grpDeserialize c (.xorshift 64) (Tab.new g 11 63) bytes
  let (t, _) ← Tab.run g t ops'
  grpSerialize c (.xorshift 64) t

/-- **C93** is false for the group table, too: reading a file leaves no spare word at the end of an array, hence the next insertion
enlarges the array by two words and sets only the second one to zero (grp:177-180). -/
theorem C93_group_not : ¬ ∀ (junk junk' : Bits) (ops ops' : List MapOp), (∀ op ∈ ops ++ ops', GrpValid (.xorshift 64) 11 op) →
    ∀ bytes bytes', rewritten junk ops ops' = .ok bytes → rewritten junk' ops ops' = .ok bytes' → bytes = bytes' := by
  intro hall
  have hv : ∀ op ∈ [MapOp.insert 0 6] ++ [MapOp.insert 8 6], GrpValid (.xorshift 64) 11 op := by decide +kernel
  have hw : (match rewritten (fun _ => false) [.insert 0 6] [.insert 8 6], rewritten (fun _ => true) [.insert 0 6] [.insert 8 6] with
    | .ok x, .ok y => x != y
    | _, _ => false) = true := by decide +kernel
  cases h1 : rewritten (fun _ => false) [.insert 0 6] [.insert 8 6] with
  | error e => rw [h1] at hw; cases hw
  | ok x =>
    cases h2 : rewritten (fun _ => true) [.insert 0 6] [.insert 8 6] with
    | error e => rw [h1, h2] at hw; cases hw
    | ok y =>
      have e := hall _ _ _ _ hv x y h1 h2
      rw [h1, h2] at hw
      simp [e] at hw

/-- **C93**, the part that holds: if the bucket classes leave no padding for the widths in question, two tables with the same number of
buckets and the same pairs in the same order write the same bytes - whatever their history, their growth strategy, their bucket
classes of the same format, and whatever uninitialised memory contains. -/
theorem C93_same_bytes_partial {KB' VB' : Type} {p' : SepCfg KB' VB'} (h : SepOK p hk tr W kw vw) (h' : SepOK p' hk tr W kw vw)
    (hf : KeyFmt KB p.kops W fk) (hf' : KeyFmt KB' p'.kops W fk) (hg : ValueFmt VB p.vops tr fv) (hg' : ValueFmt VB' p'.vops tr fv)
    {t : Tab (SepStore KB VB) Unit} {t' : Tab (SepStore KB' VB') Unit} {m m' : FMap} (ht : SepReach p hk tr W kw vw t m)
    (ht' : SepReach p' hk tr W kw vw t' m') (hbc : t'.bucketCount = t.bucketCount)
    (hpairs : t'.pairs (sepMap p' hk) = t.pairs (sepMap p hk))
    (hk1 : fk.Exact ((hk.mapping kw).remainderWidth t.tb)) (hv1 : fv.Exact vw) : p'.serialize hk t' = p.serialize hk t := by
  obtain ⟨bytes, rows, a1, a2, a3⟩ := C92_separate_format h hf hg ht
  obtain ⟨bytes', rows', b1, b2, b3⟩ := C92_separate_format h' hf' hg' ht'
  have htb : t'.tb = t.tb := by
    unfold Tab.bucketCount at hbc
    have p1 := Nat.two_pow_pos t.tb
    have p2 := Nat.two_pow_pos t'.tb
    by_cases e : t.tb = 0
    · by_cases e' : t'.tb = 0
      · omega
      · rw [if_pos e, if_neg e'] at hbc; omega
    · by_cases e' : t'.tb = 0
      · rw [if_neg e, if_pos e'] at hbc; omega
      · rw [if_neg e, if_neg e'] at hbc
        exact (Nat.pow_right_inj (by omega)).mp hbc
  rw [a2, b2] at hpairs
  rw [htb] at b3
  rw [a1, b1, b3.unique hk1 hv1 a3 (Except.ok.inj hpairs)]

/-- formats without padding -/
example : (fixedFmt 2).Exact 10 ∧ (packedFmt 8).Exact 16 ∧ noFmt.Exact 1 :=
  ⟨fixedFmt_exact _ _, packedFmt_exact (by decide) (by decide) (by decide), noFmt_exact _⟩

/-- `exCfg` with AVX2 buckets and the other growth strategy -/
def avxCfg : SepCfg PlainB PlainB := { exCfg with kops := avxOps 16, strat := .incremental }

/-- tables with the same pairs -/
example : ∃ t t' : Tab (SepStore PlainB PlainB) Unit, ∃ as as',
    Tab.run (sepMap exCfg (.xorshift 16)) (Tab.new (sepMap exCfg (.xorshift 16)) 10 20) [.insert 5 258, .insert 6 7] = .ok (t, as) ∧
    Tab.run (sepMap avxCfg (.xorshift 16)) (Tab.new (sepMap avxCfg (.xorshift 16)) 10 20) [.insert 6 7, .insert 9 1, .insert 5 258, .erase 9] =
      .ok (t', as') ∧ t.size = 2 ∧ t'.bucketCount = t.bucketCount ∧
    t'.pairs (sepMap avxCfg (.xorshift 16)) = t.pairs (sepMap exCfg (.xorshift 16)) := by
  have hw : (match Tab.run (sepMap exCfg (.xorshift 16)) (Tab.new (sepMap exCfg (.xorshift 16)) 10 20) [.insert 5 258, .insert 6 7],
      Tab.run (sepMap avxCfg (.xorshift 16)) (Tab.new (sepMap avxCfg (.xorshift 16)) 10 20)
        [.insert 6 7, .insert 9 1, .insert 5 258, .erase 9] with
    | .ok (t, _), .ok (t', _) => (t.size == 2) && (t'.bucketCount == t.bucketCount) &&
      (match t'.pairs (sepMap avxCfg (.xorshift 16)), t.pairs (sepMap exCfg (.xorshift 16)) with
      | .ok x, .ok y => x == y
      | _, _ => false)
    | _, _ => false) = true := by decide +kernel
  cases h1 : Tab.run (sepMap exCfg (.xorshift 16)) (Tab.new (sepMap exCfg (.xorshift 16)) 10 20) [.insert 5 258, .insert 6 7] with
  | error e => rw [h1] at hw; cases hw
  | ok r =>
    cases h2 : Tab.run (sepMap avxCfg (.xorshift 16)) (Tab.new (sepMap avxCfg (.xorshift 16)) 10 20)
        [.insert 6 7, .insert 9 1, .insert 5 258, .erase 9] with
    | error e => rw [h1, h2] at hw; cases hw
    | ok r' =>
      rw [h1, h2] at hw
      simp only [Bool.and_eq_true, beq_iff_eq] at hw
      refine ⟨r.1, r'.1, r.2, r'.2, rfl, rfl, hw.1.1, hw.1.2, ?_⟩
      have h3 := hw.2
      cases h4 : r'.1.pairs (sepMap avxCfg (.xorshift 16)) with
      | error e => rw [h4] at h3; cases h3
      | ok x =>
        cases h5 : r.1.pairs (sepMap exCfg (.xorshift 16)) with
        | error e => rw [h4, h5] at h3; cases h3
        | ok y => rw [h4, h5] at h3; simp only [beq_iff_eq] at h3; rw [h3]

end SC
