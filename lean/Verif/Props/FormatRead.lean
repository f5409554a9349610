import Verif.Sep.FormatRead
import Verif.Props.Format
/-!
# Reading files of other programs: C94
-/
namespace SC

variable {KB VB : Type} {p : SepCfg KB VB} {hk : HashKind} {tr : Nat → Nat → Nat} {W kw vw : Nat} {fk fv : Fmt}

/-- the finite map with these pairs -/
def FMap.ofList (l : List (Nat × Nat)) : FMap := ⟨fun k => (l.find? (fun e => e.1 == k)).map Prod.snd, l.length⟩

theorem abs_ofList {l : List (Nat × Nat)} (h : (l.map Prod.fst).Nodup) : Abs l (FMap.ofList l) := by
  refine ⟨?_, rfl⟩
  intro k v
  simp only [FMap.ofList, Option.map_eq_some_iff]
  constructor
  · rintro ⟨e, he, rfl⟩
    have h1 := List.mem_of_find?_eq_some he
    have h2 := List.find?_some he
    simp only [beq_iff_eq] at h2
    rw [← h2]
    exact h1
  · intro hm
    induction l with
    | nil => simp at hm
    | cons x l ih =>
      rw [List.map_cons, List.nodup_cons] at h
      rw [List.find?_cons]
      rcases List.mem_cons.mp hm with rfl | hm
      · exact ⟨(k, v), by simp, rfl⟩
      · have hne : x.1 ≠ k := fun e => h.1 (e ▸ List.mem_map.mpr ⟨(k, v), hm, rfl⟩)
        have : (x.1 == k) = false := by simpa using hne
        rw [this]
        exact ih h.2 hm

/-- **C94**: reading a file of the format of C92, whoever wrote it and whatever its padding bits are, into any table gives a table with
the pairs of the file in the order of the file, and from then on the table behaves like the finite map with these pairs.  The number of
buckets has to be possible for the hash function, and the buckets must not be larger than `SEPARATE_MAX_BUCKET_SIZE`. -/
theorem C94_read_file (h : SepOK p hk tr W kw vw) (hf : KeyFmt KB p.kops W fk) (hf' : ValueFmt VB p.vops tr fv)
    {tb : Nat} {rows : List (List (Nat × Nat))} {bytes : List Nat} (hfile : SepFile (hk.mapping kw) fk fv kw vw tb rows bytes)
    (htb : tb = 0 ∨ (hk.lo kw W ≤ tb ∧ tb ≤ hk.width kw - 1)) (hmax : ∀ row ∈ rows, row.length ≤ p.maxBucket)
    (hkeys : ∀ e ∈ rows.flatten, e.1 < 2 ^ kw ∧ tr vw e.2 = e.2) (hnd : (rows.flatten.map Prod.fst).Nodup)
    (hsz : rows.flatten.length < 2 ^ 64) (t0 : Tab (SepStore KB VB) Unit) (rest : List Nat) :
    ∃ t', p.deserialize hk t0 (bytes ++ rest) = .ok (t', rest) ∧ t'.pairs (sepMap p hk) = .ok rows.flatten ∧
      t'.bucketCount = rows.length ∧ t'.size = rows.flatten.length ∧ t'.kw = kw ∧ t'.vw = vw ∧
      (∀ k < 2 ^ kw, t'.lookup (sepMap p hk) k = .ok (rows.flatten.find? (fun e => e.1 == k))) ∧
      ∀ ops : List MapOp, (∀ op ∈ ops, SepValid hk W kw op) →
        ∃ t'', Tab.run (sepMap p hk) t' ops = .ok (t'', (FMap.ofList rows.flatten).run (tr vw) ops) := by
  obtain ⟨P, hP, knorm, KRep, VRep, h1, h2, h3, h4⟩ := h.parRead hf hf'
  have e1 : P.kw = kw := by obtain ⟨_, _, rfl⟩ := hP.par; rfl
  have e2 : P.vw = vw := by obtain ⟨_, _, rfl⟩ := hP.par; rfl
  have e3 : P.norm P.vw = tr vw := by obtain ⟨_, _, rfl⟩ := hP.par; rfl
  obtain ⟨t', g1, g2, g3, g4⟩ := read_file hP h1 h2 h3 h4 hfile htb hmax hkeys hnd hsz t0 rest
  have hA := abs_ofList hnd
  have hs : Sem (sepMap p hk) P t' (FMap.ofList rows.flatten) := ⟨_, g2, hA⟩
  refine ⟨t', g1, g4, ?_, hs.size, hs.widths.1.trans e1, hs.widths.2.trans e2, ?_, ?_⟩
  · rw [Tab.bucketCount, g3, hfile.1]
  · intro k hk'
    rw [hs.lookup hP.laws (by rw [e1]; exact hk')]
    congr 1
    simp only [FMap.ofList, Option.map_map]
    cases hfd : rows.flatten.find? (fun e => e.1 == k) with
    | none => rfl
    | some e =>
      have := List.find?_some hfd
      simp only [beq_iff_eq] at this
      simp [← this]
  · intro ops hops
    obtain ⟨t'', _, h6, _⟩ := Tab.run_ok hP.laws hP.grow65 ops g2 hA (fun op hop => hP.opOK (hops op hop))
    rw [e3] at h6
    exact ⟨t'', h6⟩

/-- **C94**: a table can be read by a program with other bucket classes of the same format (AVX2 or not, other uninitialised memory),
another growth strategy, and a `SEPARATE_MAX_BUCKET_SIZE` that is not smaller. -/
theorem C94_portable {KB' VB' : Type} {p' : SepCfg KB' VB'} (h : SepOK p hk tr W kw vw) (h' : SepOK p' hk tr W kw vw)
    (hf : KeyFmt KB p.kops W fk) (hf' : KeyFmt KB' p'.kops W fk) (hg : ValueFmt VB p.vops tr fv) (hg' : ValueFmt VB' p'.vops tr fv)
    (hmax : p.maxBucket ≤ p'.maxBucket) {t : Tab (SepStore KB VB) Unit} {m : FMap} (ht : SepReach p hk tr W kw vw t m)
    (hsz : t.size < 2 ^ 64) :
    ∃ bytes, p.serialize hk t = .ok bytes ∧ ∀ t0 rest, ∃ t', p'.deserialize hk t0 (bytes ++ rest) = .ok (t', rest) ∧
      t'.pairs (sepMap p' hk) = t.pairs (sepMap p hk) ∧ t'.bucketCount = t.bucketCount ∧ t'.size = t.size ∧
      ∀ ops : List MapOp, (∀ op ∈ ops, SepValid hk W kw op) →
        ∃ t'', Tab.run (sepMap p' hk) t' ops = .ok (t'', m.run (tr vw) ops) := by
  obtain ⟨P, hP, KRep, VRep, h1, h2, h3⟩ := h.parFmt hf hg
  have e1 : P.kw = kw := by obtain ⟨_, _, rfl⟩ := hP.par; rfl
  have e3 : P.norm P.vw = tr vw := by obtain ⟨_, _, rfl⟩ := hP.par; rfl
  have elo : P.lo = hk.lo kw W := by obtain ⟨_, _, rfl⟩ := hP.par; rfl
  have ehi : P.hi = hk.width kw - 1 := by obtain ⟨_, _, rfl⟩ := hP.par; rfl
  obtain ⟨l, l1, hi, ha⟩ := (ht.sem hP).pairs hP.laws hP.noOverflow
  obtain ⟨bytes, rows, a1, a2, a3, a4⟩ := serialize_format hP h1 h2 h3 hi
  rw [l1] at a2
  cases a2
  have hnd := hi.nodup hP.laws
  have hszl : t.size = rows.flatten.length := by rw [(ht.sem hP).size, ha.size]
  have hkeys : ∀ e ∈ rows.flatten, e.1 < 2 ^ kw ∧ tr vw e.2 = e.2 := by
    intro e he
    rcases hi with ⟨_, _, _, _, _, _, hl, _⟩ | ⟨c, o, full, hl, hp⟩
    · rw [hl] at he; simp at he
    · have ho : o = [] := hP.noOverflow _ _ _ _ hl.orep
      subst ho
      have he' := hp.mem_iff.mp he
      refine ⟨by rw [← e1]; exact key_lt_of_mem (hl.map_ok hP.laws) hl.cok (k := e.1) (v := e.2) he', ?_⟩
      simp only [ents, List.map_nil, List.append_nil] at he'
      obtain ⟨b, hb, x, hx, rfl⟩ := mem_stored.mp he'
      rw [← e3]
      exact hl.vals b hb x hx
  have htb : t.tb = 0 ∨ (hk.lo kw W ≤ t.tb ∧ t.tb ≤ hk.width kw - 1) := by
    rcases hi with ⟨_, _, _, _, h5, _⟩ | ⟨c, o, full, hl, hp⟩
    · exact .inl h5
    · exact .inr ⟨elo ▸ hl.lo, ehi ▸ hl.hi⟩
  refine ⟨bytes, a1, fun t0 rest => ?_⟩
  obtain ⟨P', hP', knorm', KRep', VRep', h1', h2', h3', h4'⟩ := h'.parRead hf' hg'
  have e3' : P'.norm P'.vw = tr vw := by obtain ⟨_, _, rfl⟩ := hP'.par; rfl
  obtain ⟨t', g1, g2, g3, g4⟩ := read_file hP' h1' h2' h3' h4' a3 htb (fun row hr => by
    have := a4 row hr
    unfold SepCfg.maxSize at this
    omega) hkeys hnd (by rw [← hszl]; exact hsz) t0 rest
  refine ⟨t', g1, by rw [g4, l1], by unfold Tab.bucketCount; rw [g3], ?_, ?_⟩
  · rw [hszl]; exact Sem.size (m := FMap.ofList rows.flatten) ⟨_, g2, abs_ofList hnd⟩
  · intro ops hops
    obtain ⟨t'', _, h6, _⟩ := Tab.run_ok hP'.laws hP'.grow65 ops g2 ha (fun op hop => hP'.opOK (hops op hop))
    rw [e3'] at h6
    exact ⟨t'', h6⟩

/-- a bucket with 255 elements -/
def bigRow : List (Nat × Nat) := (((List.range 1024).filter fun k => match ((HashKind.xorshift 16).mapping 10).map k 1 with
  | .ok (_, b) => b == 0
  | .error _ => false).take 255).map (fun k => (k, 1))

/-- the file of a table with two buckets, the first one with 255 elements -/
def bigFile : List Nat := toBytes 1 10 ++ toBytes 1 20 ++ toBytes 1 1 ++ toBytes 8 255 ++ [255, 0] ++
  bigRow.flatMap (fun e => toBytes 2 (quotOf ((HashKind.xorshift 16).mapping 10) 1 e.1)) ++ bigRow.flatMap (fun e => toBytes 4 e.2)

theorem bigFile_format : SepFile ((HashKind.xorshift 16).mapping 10) (fixedFmt 2) (fixedFmt 4) 10 20 1 [bigRow, []] bigFile := by
  have hm : ∀ e ∈ bigRow, (match ((HashKind.xorshift 16).mapping 10).map e.1 1 with
      | .ok (q, b) => q == quotOf ((HashKind.xorshift 16).mapping 10) 1 e.1 && b == 0
      | .error _ => false) = true := by decide +kernel
  refine ⟨rfl, by decide +kernel, bigRow.flatMap (fun e => toBytes 2 (quotOf ((HashKind.xorshift 16).mapping 10) 1 e.1)) ++
    bigRow.flatMap (fun e => toBytes 4 e.2) ++ [], by decide +kernel, ?_⟩
  refine .block (qs := bigRow.map (fun e => quotOf ((HashKind.xorshift 16).mapping 10) 1 e.1)) (by decide +kernel) ?_ ?_ ?_ (.empty .nil)
  · rw [List.map_map]
    apply List.map_congr_left
    intro e he
    have := hm e he
    simp only [Function.comp_apply]
    cases h : ((HashKind.xorshift 16).mapping 10).map e.1 1 with
    | error x => rw [h] at this; cases this
    | ok r =>
      rw [h] at this
      simp only [Bool.and_eq_true, beq_iff_eq] at this
      rw [← this.1, ← this.2]
  · simp only [fixedFmt, List.flatMap_map]
  · simp only [fixedFmt, List.flatMap_map]

/-- The limit on the size of the buckets in `C94_read_file` is necessary: a bucket that is larger than `SEPARATE_MAX_BUCKET_SIZE` of the
reading program (3 in `exCfg`) is not recognised as full (sep:632 compares with `==`), and if it has 255 elements, an insertion writes
outside of it. -/
theorem C94_smaller_limit_not : ¬ ∀ (rows : List (List (Nat × Nat))) (bytes : List Nat),
    SepFile ((HashKind.xorshift 16).mapping 10) (fixedFmt 2) (fixedFmt 4) 10 20 1 rows bytes →
    (∀ e ∈ rows.flatten, e.1 < 2 ^ 10 ∧ e.2 % 2 ^ 32 = e.2) → (rows.flatten.map Prod.fst).Nodup → ∀ t0 op,
    SepValid (.xorshift 16) 16 10 op →
      ∃ t', exCfg.deserialize (.xorshift 16) t0 bytes = .ok (t', []) ∧ ∃ r, t'.step (sepMap exCfg (.xorshift 16)) op = .ok r := by
  intro hall
  obtain ⟨t', h1, r, h2⟩ := hall _ _ bigFile_format (by decide +kernel) (by decide +kernel)
    (Tab.new (sepMap exCfg (.xorshift 16)) 10 20) (.insert 1022 1) (by decide +kernel)
  have hw : (match exCfg.deserialize (.xorshift 16) (Tab.new (sepMap exCfg (.xorshift 16)) 10 20) bigFile with
    | .ok (t', _) => (match t'.step (sepMap exCfg (.xorshift 16)) (.insert 1022 1) with
      | .ok _ => false
      | .error _ => true)
    | .error _ => false) = true := by decide +kernel
  rw [h1] at hw
  simp only [h2] at hw
  cases hw

/-- the files of the example tables have a format that the AVX2 buckets can read -/
example : KeyFmt PlainB avxCfg.kops 16 (fixedFmt 2) ∧ ValueFmt PlainB avxCfg.vops (fun _ v => v % 2 ^ 32) (fixedFmt 4) ∧
    exCfg.maxBucket ≤ avxCfg.maxBucket :=
  ⟨.avx (s := 16) (by simp), .plain (s := 32) (by simp), Nat.le_refl _⟩

/-- a file with two pairs -/
example : SepFile ((HashKind.xorshift 16).mapping 3) (fixedFmt 2) (fixedFmt 4) 3 20 1 [[(5, 258)], [(6, 7)]]
    [3, 20, 1, 2, 0, 0, 0, 0, 0, 0, 0, 1, 1, 2, 0, 2, 1, 0, 0, 3, 0, 7, 0, 0, 0] := by
  refine ⟨rfl, by simp, [2, 0, 2, 1, 0, 0, 3, 0, 7, 0, 0, 0], by decide +kernel, ?_⟩
  refine Blocks.block (qs := [2]) (kb := [2, 0]) (vb := [2, 1, 0, 0]) (bytes := [3, 0, 7, 0, 0, 0]) (by simp) ?_ rfl
    rfl (Blocks.block (qs := [3]) (kb := [3, 0]) (vb := [7, 0, 0, 0]) (bytes := []) (by simp) ?_ rfl
    rfl .nil)
  · simp only [List.map_cons, List.map_nil]
    congr 1
  · simp only [List.map_cons, List.map_nil]
    congr 1

end SC
