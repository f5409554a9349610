import Verif.Group.FormatRead
import Verif.Props.FormatRead
/-!
# Group tables read files of other programs: C99
-/
namespace SC

variable {c : GrpCfg} {hk : HashKind} {kw vw : Nat}

/-- what a table read from a file does from then on; erasures are included if reads behind the end of an array are not faults (C58) -/
theorem read_run (h : GrpOK hk kw vw) {t' : Tab GrpStore Unit} {l : List (Nat × Nat)} {m : FMap}
    (hi : Inv (grpMap c hk) (grpPar false hk kw vw) t' l) (ha : Abs l m) (ops : List MapOp) (hops : ∀ op ∈ ops, GrpValid hk kw op)
    (hor : c.strict = false ∨ ∀ op ∈ ops, op.keeps = true) :
    ∃ t'', Tab.run (grpMap c hk) t' ops = .ok (t'', m.run (fun v => v % 2 ^ vw) ops) := by
  have hC := h.coveredE (c := c) (e := c.flat) (sp := false) (by simp)
  have f2 := (Inv_withErase (f := (grpOps c.flat).eraseAt)).mpr hi
  obtain ⟨t'', _, h6, _⟩ := Tab.run_ok hC.laws hC.grow65 ops f2 ha (fun op hop => hC.opOK (hops op hop))
  refine ⟨t'', ?_⟩
  rcases hor with hst | hks
  · rw [grpMapE_self hst] at h6
    exact h6
  · rw [grpMapE, run_withErase ops hks] at h6
    exact h6

/-- **C99**: reading a file of the format of C92, whoever wrote it and whatever its padding bits are, into any table gives a table with
the pairs of the file in the order of the file, and from then on the table behaves like the finite map with these pairs (with erasures
as in C45).  If there are pairs, the number of buckets has to be possible for the hash function, and it is restored. -/
theorem C99_group_read_file (h : GrpOK hk kw vw) {tb bpg : Nat} {row : Nat → List (Nat × Nat)} {bytes : List Nat}
    (hfile : GrpFile (hk.mapping kw) kw vw tb bpg row bytes) (hbpg : 1 ≤ bpg ∧ bpg ≤ 64) {l : List (Nat × Nat)}
    (hl : l = (List.range (2 ^ tb)).flatMap row) (htb : l = [] ∨ (hk.lo kw 64 ≤ tb ∧ tb ≤ hk.width kw - 1))
    (hkeys : ∀ x ∈ l, x.1 < 2 ^ kw ∧ x.2 < 2 ^ vw) (hnd : (l.map Prod.fst).Nodup) (hsz : l.length < 2 ^ 64)
    (t0 : Tab GrpStore Unit) (rest : List Nat) :
    ∃ t', grpDeserialize c hk t0 (bytes ++ rest) = .ok (t', rest) ∧ t'.pairs (grpMap c hk) = .ok l ∧
      t'.size = l.length ∧ t'.kw = kw ∧ t'.vw = vw ∧ t'.bpg = bpg ∧ (l ≠ [] → t'.bucketCount = 2 ^ tb) ∧
      (∀ k < 2 ^ kw, t'.lookup (grpMap c hk) k = .ok (l.find? (fun e => e.1 == k))) ∧
      ∀ ops : List MapOp, (∀ op ∈ ops, GrpValid hk kw op) → c.strict = false ∨ (∀ op ∈ ops, op.keeps = true) →
        ∃ t'', Tab.run (grpMap c hk) t' ops = .ok (t'', (FMap.ofList l).run (fun v => v % 2 ^ vw) ops) := by
  subst hl
  have hC := h.coveredE (c := c) (e := c.flat) (sp := false) (by simp)
  obtain ⟨t', g1, g2, g3, g4, g5⟩ := grp_read_file hC.laws hfile hbpg htb hkeys hnd hsz t0 rest
  have hA := abs_ofList hnd
  have hs : Sem (grpMapE c c.flat hk) (grpPar false hk kw vw) t' (FMap.ofList ((List.range (2 ^ tb)).flatMap row)) :=
    ⟨_, (Inv_withErase (f := (grpOps c.flat).eraseAt)).mpr g2, hA⟩
  refine ⟨t', g1, g5, hs.size, hs.widths.1, hs.widths.2, g3, ?_, ?_, fun ops hops hor => read_run h g2 hA ops hops hor⟩
  · intro hne
    have h1 := g4 hne
    rw [Tab.bucketCount, h1]
    rcases htb with he | ⟨hlo, _⟩
    · exact absurd he hne
    · have h2 : 1 ≤ hk.lo kw 64 := hC.laws.lo_pos
      rw [if_neg (by omega)]
  · intro k hk'
    have := hs.lookup hC.laws hk'
    rw [grpMapE, lookup_withErase] at this
    rw [this]
    congr 1
    simp only [FMap.ofList, Option.map_map]
    cases hfd : ((List.range (2 ^ tb)).flatMap row).find? (fun e => e.1 == k) with
    | none => rfl
    | some e =>
      have := List.find?_some hfd
      simp only [beq_iff_eq] at this
      simp [← this]

/-- **C99**: a table written by one program can be read by another one, whatever the contents of uninitialised memory are in both and
whether they were compiled with BMI2 instructions. -/
theorem C99_group_portable (c' : GrpCfg) (h : GrpOK hk kw vw) {t : Tab GrpStore Unit} {m : FMap} (ht : GrpReach c hk kw vw t m)
    (hsz : t.size < 2 ^ 64) :
    ∃ bytes, grpSerialize c hk t = .ok bytes ∧ ∀ t0 rest, ∃ t', grpDeserialize c' hk t0 (bytes ++ rest) = .ok (t', rest) ∧
      t'.pairs (grpMap c' hk) = t.pairs (grpMap c hk) ∧ t'.size = t.size ∧ t'.bpg = t.bpg ∧
      (t.size ≠ 0 → t'.bucketCount = t.bucketCount) ∧
      ∀ ops : List MapOp, (∀ op ∈ ops, GrpValid hk kw op) → c'.strict = false ∨ (∀ op ∈ ops, op.keeps = true) →
        ∃ t'', Tab.run (grpMap c' hk) t' ops = .ok (t'', m.run (fun v => v % 2 ^ vw) ops) := by
  have hC := h.coveredE (c := c) (e := c.flat) (sp := false) (by simp)
  have hC' := h.coveredE (c := c') (e := c'.flat) (sp := false) (by simp)
  have hs := ht.sem h
  obtain ⟨l, l1, hi', ha⟩ := hs.pairs hC.laws hC.noOverflow
  rw [grpMapE, pairs_withErase] at l1
  have hi := Inv_withErase.mp hi'
  obtain ⟨bytes, row, a1, a2, a3⟩ := grpSerialize_format hC.laws hi
  rw [l1] at a2
  have hl : l = (List.range (2 ^ t.tb)).flatMap row := Except.ok.inj a2
  have hnd := hi'.nodup hC.laws
  have hszl : t.size = l.length := by rw [hs.size, ha.size]
  have hbpg : 1 ≤ t.bpg ∧ t.bpg ≤ 64 := by
    rcases hi with ⟨_, _, h3, h4, _⟩ | ⟨_, _, _, hl, _⟩
    · exact ⟨h3, h4⟩
    · exact ⟨hl.bpg_pos, hl.bpg_le⟩
  have hkeys : ∀ x ∈ l, x.1 < 2 ^ kw ∧ x.2 < 2 ^ vw := by
    intro x hx
    rcases hi' with ⟨_, _, _, _, _, _, hl, _⟩ | ⟨cont, o, full, hl, hp⟩
    · rw [hl] at hx; simp at hx
    · have ho : o = [] := hl.orep.1
      subst ho
      have hx' := hp.mem_iff.mp hx
      refine ⟨key_lt_of_mem (hl.map_ok hC.laws) hl.cok (k := x.1) (v := x.2) hx', ?_⟩
      simp only [ents, List.map_nil, List.append_nil] at hx'
      obtain ⟨b, hb, y, hy, rfl⟩ := mem_stored.mp hx'
      have hv : y.2 % 2 ^ vw = y.2 := hl.vals b hb y hy
      exact hv ▸ Nat.mod_lt _ (Nat.two_pow_pos _)
  have htb : l = [] ∨ (hk.lo kw 64 ≤ t.tb ∧ t.tb ≤ hk.width kw - 1) := by
    rcases hi with ⟨_, _, _, _, _, _, h7, _⟩ | ⟨_, _, _, hl, _⟩
    · exact .inl h7
    · exact .inr ⟨hl.lo, hl.hi⟩
  refine ⟨bytes, a1, fun t0 rest => ?_⟩
  obtain ⟨t', g1, g2, g3, g4, g5⟩ := grp_read_file hC'.laws a3 hbpg (by rw [← hl]; exact htb) (by rw [← hl]; exact hkeys)
    (by rw [← hl]; exact hnd) (by rw [← hl, ← hszl]; exact hsz) t0 rest
  rw [← hl] at g2 g4 g5
  refine ⟨t', g1, by rw [g5, l1], ?_, g3, ?_, fun ops hops hor => read_run h g2 ha ops hops hor⟩
  · rw [hszl]
    exact Sem.size (g := grpMap c' hk) (m := FMap.ofList l) ⟨_, g2, abs_ofList hnd⟩
  · intro h0
    unfold Tab.bucketCount
    rw [g4 (fun e => h0 (by rw [hszl, e]; rfl))]

/-- the rows of the file below: the keys 5 and 6 in two buckets -/
def twoRows (b : Nat) : List (Nat × Nat) := if b = 0 then [(5, 258)] else if b = 1 then [(6, 7)] else []

/-- a file with two pairs and padding bits that are ones; the second group is empty -/
def twoFile : List Nat := [11, 13, 1, 2, 0, 0, 0, 0, 0, 0, 0, 2] ++
  ([2, 0, 0, 0] ++ [250, 255, 255, 255, 255, 255, 255, 255] ++ [221, 111, 247, 255, 255, 255, 255, 255] ++
    [2, 225, 0, 252, 255, 255, 255, 255] ++ ([0, 0, 0, 0] ++ []))

theorem twoFile_format : GrpFile ((HashKind.xorshift 64).mapping 11) 11 13 1 2 twoRows twoFile := by
  refine ⟨?_, ?_, _, rfl, ?_⟩
  · intro b e he
    unfold twoRows at he
    split at he
    · rename_i hb
      rw [List.mem_singleton] at he
      subst he; subst hb
      exact ⟨989, rfl⟩
    · split at he
      · rename_i hb
        rw [List.mem_singleton] at he
        subst he; subst hb
        exact ⟨475, rfl⟩
      · cases he
  · intro b hb
    unfold twoRows
    rw [if_neg (by omega), if_neg (by omega)]
  · rw [if_neg (by decide +kernel)]
    refine .block (j := 0) (by decide +kernel) (by decide +kernel) ⟨by decide +kernel, by decide +kernel, by decide +kernel⟩
      ⟨by decide +kernel, by decide +kernel, by decide +kernel⟩ ⟨by decide +kernel, by decide +kernel, by decide +kernel⟩
      (.empty (by decide +kernel) .nil)

/-- the hypotheses of `C99_group_read_file` are met by a file that no program of this library writes -/
example : ∃ t', grpDeserialize grpEx (.xorshift 64) (Tab.new (grpMap grpEx (.xorshift 64)) 5 5) (twoFile ++ [1, 2, 3]) = .ok (t', [1, 2, 3]) ∧
    t'.pairs (grpMap grpEx (.xorshift 64)) = .ok [(5, 258), (6, 7)] ∧ t'.bucketCount = 2 := by
  obtain ⟨t', h1, h2, _, _, _, _, h3, _⟩ := C99_group_read_file (c := grpEx) grpExOK twoFile_format (by decide) (l := [(5, 258), (6, 7)])
    (by decide +kernel) (by decide +kernel) (by decide +kernel) (by decide +kernel) (by decide)
    (Tab.new (grpMap grpEx (.xorshift 64)) 5 5) [1, 2, 3]
  exact ⟨t', h1, h2, h3 (by simp)⟩

/-- the example table of `Verif.Props.Group` meets the hypotheses of `C99_group_portable` -/
example : ∃ t m, GrpReach grpEx (.xorshift 64) 11 13 t m ∧ t.size = 40 ∧ t.size < 2 ^ 64 := by
  obtain ⟨t, ⟨as, ht⟩, _, h2, _⟩ := grpExAfter
  exact ⟨t, _, GrpReach.new.run grpExOps_valid ht, h2, by omega⟩

end SC
