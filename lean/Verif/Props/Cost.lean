import Verif.Table.Cost
import Verif.Props.FileSize
import Verif.Props.Overflow
/-!
# How often `find_or_insert` is executed: C120
-/
namespace SC

variable {KB VB : Type} {p : SepCfg KB VB} {hk : HashKind} {tr : Nat → Nat → Nat} {W kw vw : Nat}

/-- number of calls that insert: `find_or_insert`, and `operator[]` with or without assignment -/
def insertCalls (ops : List MapOp) : Nat := ops.countP (fun op => match op with | .insert _ _ | .get _ | .assign _ _ => true | _ => false)

/-- number of calls of `reserve` -/
def reserveCalls (ops : List MapOp) : Nat := ops.countP (fun op => match op with | .reserve _ => true | _ => false)

theorem insertCalls_eq (ops : List MapOp) : insertCalls ops = ops.countP MapOp.inserts := by
  unfold insertCalls
  congr 1

theorem reserveCalls_eq (ops : List MapOp) : reserveCalls ops = ops.countP MapOp.reserves := by
  unfold reserveCalls
  congr 1

/-- The calls `ops` on a new table give the same state and answers as without counting, and `find_or_insert` is executed at least once and at most
`1 + B` times for each call that inserts, and as often again for each call of `reserve`. -/
def CostSpec {S O : Type} (g : Cfg S O) (kw vw : Nat) (ops : List MapOp) (B : Nat) : Prop :=
  ∃ t as n, Tab.run g (Tab.new g kw vw) ops = .ok (t, as) ∧ Tab.runC g (Tab.new g kw vw) ops = .ok ((t, as), n) ∧
    insertCalls ops ≤ n ∧ n ≤ insertCalls ops * (1 + B) * (1 + reserveCalls ops)

theorem CostSpec.mono {S O : Type} {g : Cfg S O} {ops : List MapOp} {B B' : Nat} (h : CostSpec g kw vw ops B) (hB : B ≤ B') :
    CostSpec g kw vw ops B' := by
  obtain ⟨t, as, n, h1, h2, h4, h3⟩ := h
  exact ⟨t, as, n, h1, h2, h4, Nat.le_trans h3 (Nat.mul_le_mul_right _ (Nat.mul_le_mul_left _ (by omega)))⟩

theorem ini_le {n I j : Nat} (hn : 1 ≤ n) (h0 : 1 ≤ I) (hI : I ≤ 2 ^ j) : ceilLog (min n I) ≤ j := (ceilLog_le_iff (by omega)).mpr (by omega)

/-- **C120**, `separate_chaining_table`. -/
theorem C120_separate_cost (h : SepOK p hk tr W kw vw) {ops : List MapOp} (hops : ∀ op ∈ ops, SepValid hk W kw op) {N : Nat}
    (hN : ReserveAtMost (2 ^ N) ops) : CostSpec (sepMap p hk) kw vw ops (max (max 4 (hk.width kw - Nat.log2 p.maxSize)) N) := by
  obtain ⟨P, hP⟩ := h.par true
  have hS := h.hash
  have h3 : 3 ≤ kw ∧ kw ≤ 64 := by cases hk <;> exact ⟨hS.1, hS.2.1⟩
  have hw : hk.width kw - 1 < 64 := by cases hk <;> simp [HashKind.width] <;> omega
  have hops' : ∀ op ∈ ops, OpOK P op := fun op hop => hP.opOK (hops op hop)
  obtain ⟨KRep, VRep, rfl⟩ := hP.par
  have key := fact_cost hP.laws hP.grow65 hops' hops hw hN
  rw [← insertCalls_eq, ← reserveCalls_eq] at key
  have e : sepIni kw ≤ 4 := ini_le (n := kw - 1) (I := 16) (j := 4) (by omega) (by omega) (by omega)
  refine CostSpec.mono key ?_
  simp only [sepPar, HashKind.grow, Nat.div_one]
  omega

/-- **C120**, `separate_chaining_table` with a `map_overflow`: pairs in the overflow table are moved too. -/
theorem C120_separate_overflow_cost {c : MapEnv} (h : SepOK p hk tr W kw vw) (hc : c.good) (hf : OvFits c (tr vw)) {ops : List MapOp}
    (hops : ∀ op ∈ ops, OvValid c (tr vw) hk W kw op) {N : Nat} (hN : ReserveAtMost (2 ^ N) ops) :
    CostSpec (sepMapOv p hk c) kw vw ops (max (max 4 (hk.width kw - Nat.log2 p.maxSize)) N) := by
  obtain ⟨knorm, KRep, h1, h2, h3⟩ := h.keys.lawful
  obtain ⟨⟨VRep, h4⟩, h5⟩ := h.vals.lawful
  have hM : 2 ≤ p.maxSize := by have := h.max; unfold SepCfg.maxSize; omega
  obtain ⟨L, hg⟩ := sep_laws (ov := mapOverflow c) h1 h2 h4 h3 (h5 vw) (lawful_map c hc)
    (fun x => Nat.mod_eq_of_lt (hf.wide x)) hM h.hash h.vw_pos h.vw_le true
  have hv : ∀ op ∈ ops, OpOK (sepPar p hk KRep VRep (MapRep c) tr c.val true W kw vw) op := fun op hop =>
    ValidOp.opOK L.hi_lt L.lo_pos (fun v hv => hv) (show c.val 0 = tr vw 0 by rw [hf.zero]; exact Nat.zero_mod _) (hops op hop)
  have hS := h.hash
  have h3 : 3 ≤ kw ∧ kw ≤ 64 := by cases hk <;> exact ⟨hS.1, hS.2.1⟩
  have hw : hk.width kw - 1 < 64 := by cases hk <;> simp [HashKind.width] <;> omega
  have key := fact_cost L hg hv hops hw hN
  rw [← insertCalls_eq, ← reserveCalls_eq] at key
  have e : sepIni kw ≤ 4 := ini_le (n := kw - 1) (I := 16) (j := 4) (by omega) (by omega) (by omega)
  refine CostSpec.mono key ?_
  simp only [sepPar, HashKind.grow, Nat.div_one]
  omega

/-- **C120**, `compact_chaining_map`. -/
theorem C120_compact_cost {c : VarCfg} (h : CmpOK c hk kw vw) {ops : List MapOp} (hops : ∀ op ∈ ops, CmpValid hk kw op) {N : Nat}
    (hN : ReserveAtMost (2 ^ N) ops) : CostSpec (cmpMap c hk) kw vw ops (max (max 4 (hk.width kw - 7)) N) := by
  have hS := h.hash
  have h3 : 3 ≤ kw ∧ kw ≤ 64 := by cases hk <;> exact ⟨hS.1, hS.2.1⟩
  have hw : hk.width kw - 1 < 64 := by cases hk <;> simp [HashKind.width] <;> omega
  have hC := h.covered
  have hops' : ∀ op ∈ ops, OpOK (cmpPar c hk kw vw) op := fun op hop => hC.opOK (hops op hop)
  have key := fact_cost hC.laws hC.grow65 hops' hops hw hN
  rw [← insertCalls_eq, ← reserveCalls_eq] at key
  have e : sepIni kw ≤ 4 := ini_le (n := kw - 1) (I := 16) (j := 4) (by omega) (by omega) (by omega)
  have e2 : Nat.log2 255 = 7 := by decide
  refine CostSpec.mono key ?_
  simp only [cmpPar, HashKind.grow, Nat.div_one, e2]
  omega

/-- **C120**, `group_chaining_table`. -/
theorem C120_group_cost {c : GrpCfg} (h : GrpOK hk kw vw) {ops : List MapOp} (hops : ∀ op ∈ ops, GrpValid hk kw op) {N : Nat}
    (hN : ReserveAtMost (2 ^ N) ops) : CostSpec (grpMap c hk) kw vw ops (max (max 3 (hk.width kw - 1)) N) := by
  have hS := h.hash
  have h3 : 3 ≤ kw ∧ kw ≤ 64 := by cases hk <;> exact ⟨hS.1, hS.2.1⟩
  have hw : hk.width kw - 1 < 64 := by cases hk <;> simp [HashKind.width] <;> omega
  have hC := h.covered (c := c) (sp := c.strict) id
  have hops' : ∀ op ∈ ops, OpOK (grpPar c.strict hk kw vw) op := fun op hop => hC.opOK (hops op hop)
  have key := fact_cost hC.laws hC.grow65 hops' hops hw hN
  rw [← insertCalls_eq, ← reserveCalls_eq] at key
  have e : grpIni kw ≤ 3 := ini_le (n := kw - 1) (I := 8) (j := 3) (by omega) (by omega) (by omega)
  have e2 : Nat.log2 (255 / 64) = 1 := by decide
  refine CostSpec.mono key ?_
  simp only [grpPar, HashKind.grow, e2]
  omega

/-- **C120**, `group_chaining_table` with a `map_overflow`. -/
theorem C120_group_overflow_cost {gc : GrpCfg} {c : MapEnv} (h : GrpOK hk kw vw) (hc : c.good) (hf : OvFits c (fun v => v % 2 ^ vw)) {ops : List MapOp}
    (hops : ∀ op ∈ ops, OvValid c (fun v => v % 2 ^ vw) hk 64 kw op) {N : Nat} (hN : ReserveAtMost (2 ^ N) ops) :
    CostSpec (grpTable gc hk (mapOverflow c)) kw vw ops (max (max 3 (hk.width kw - 1)) N) := by
  have hS := h.hash
  have h3 : 3 ≤ kw ∧ kw ≤ 64 := by cases hk <;> exact ⟨hS.1, hS.2.1⟩
  have hw : hk.width kw - 1 < 64 := by cases hk <;> simp [HashKind.width] <;> omega
  obtain ⟨L, hg⟩ := grp_ov_laws (gc := gc) h hc hf
  have hv : ∀ op ∈ ops, OpOK (grpParOv c gc.strict hk kw vw) op := fun op hop =>
    ValidOp.opOK (P := grpParOv c gc.strict hk kw vw) L.hi_lt L.lo_pos (fun v hv => hv)
      (show c.val 0 = 0 % 2 ^ vw by rw [Nat.zero_mod]; exact Nat.zero_mod _) (hops op hop)
  have key := fact_cost L hg hv hops hw hN
  rw [← insertCalls_eq, ← reserveCalls_eq] at key
  have e : grpIni kw ≤ 3 := ini_le (n := kw - 1) (I := 8) (j := 3) (by omega) (by omega) (by omega)
  have e2 : Nat.log2 (255 / 64) = 1 := by decide
  refine CostSpec.mono key ?_
  simp only [grpParOv, HashKind.grow, e2]
  omega

/-- buckets of at most 3 pairs: 62 insertions and one `reserve` execute `find_or_insert` 179 times -/
example : (match Tab.runC (sepMap exCfg (.xorshift 16)) (Tab.new (sepMap exCfg (.xorshift 16)) 10 20) exOps with
    | .ok (_, n) => n | .error _ => 0) = 179 ∧ insertCalls exOps = 62 ∧ reserveCalls exOps = 1 := by decide +kernel

example : CostSpec (sepMap exCfg (.xorshift 16)) 10 20 exOps 9 :=
  C120_separate_cost (N := 7) exOK exOps_valid (by
    intro m hm
    simp only [exOps, List.mem_append, List.mem_map, List.mem_cons, List.not_mem_nil, or_false] at hm
    rcases hm with ⟨_, _, hm⟩ | hm
    · cases hm
    · rcases hm with hm | hm | hm | hm | hm | hm | hm | hm <;> cases hm
      decide)

example : CostSpec (grpTable grpEx (.xorshift 64) (mapOverflow ovEx)) 11 13 [.insert 5 6, .reserve 100, .insert 1000 7, .erase 5] 10 :=
  C120_group_overflow_cost (N := 7) grpExOK ovEx_good ovEx_fits_grp (by decide +kernel) (by
    intro m hm
    simp only [List.mem_cons, List.not_mem_nil, or_false] at hm
    rcases hm with hm | hm | hm | hm <;> cases hm
    decide)

end SC
