import Verif.Group.Walk
import Verif.Props.OverflowBack
import Verif.Props.DebugMapFile
import Verif.Props.DebugGroupMapFile
/-!
# Which pairs loops visit in tables with `map_overflow`: C135

C52 and C64 say that the forward loop and the backward loop of `separate_chaining_map<..., map_overflow>` miss pairs, and which ones.  Here the same is shown
for `group_chaining_table`, whose `begin()` and `rbegin_nav()` are written differently, and for debug builds of both, where in addition no assertion fails.

The assertions of `next_position` and `previous_position` (overflow.hpp:197, 204) are not part of `mapOverflowDbg`.  They hold in these loops:
`operator++` comes after `key()`, which has checked that the position is below the number of buckets (overflow.hpp:280), and `operator--` calls
`previous_position` only with a positive position (iterator.hpp:103).
-/
namespace SC

variable {KB VB : Type} {k : DbgCfg KB} {vops : BucketOps VB} {vnull : VB → Bool} {strat : Strategy} {maxBucket W kbits vbits kw vw : Nat}
  {hk : HashKind} {tr : Nat → Nat → Nat} {g : GrpCfg} {c : MapEnv}

/-! ## Specification -/

/-- The forward loop visits no key twice; it visits the pairs of `m` whose keys are not in the overflow table, and the others exactly if position 0 of the
overflow table is occupied. -/
def ForwardOv (ov : OverflowOps MapOv) (o : MapOv) (m : FMap) (l : List (Nat × Nat)) : Prop :=
  (l.map Prod.fst).Nodup ∧ ∀ k v, (k, v) ∈ l ↔ m.get k = some v ∧ (ov.validPosition o 0 = true ∨ ov.find o k = .ok NPOS)

/-- The backward loop visits no key twice and no pair that is in a bucket.  It visits those pairs of the overflow table that are at positions up to `size()`, if
position `size()` is occupied, and none otherwise. -/
def BackwardOv (ov : OverflowOps MapOv) (o : MapOv) (m : FMap) (l : List (Nat × Nat)) : Prop :=
  (l.map Prod.fst).Nodup ∧ ∀ k v, (k, v) ∈ l ↔ m.get k = some v ∧ ov.validPosition o (ov.size o) = true ∧ ∃ q ≤ ov.size o, ov.find o k = .ok q

/-- both loops; the backward loop if the overflow table is in use -/
def LoopsOv {S : Type} (g : Cfg S MapOv) (m : FMap) (t : Tab S MapOv) : Prop :=
  (∃ l, t.pairs g = .ok l ∧ ForwardOv g.ov t.ovf m l) ∧
  (0 < g.ov.size t.ovf → ∃ l, t.pairsBack g = .ok l ∧ BackwardOv g.ov t.ovf m l)

theorem Inv.loopsOv {S : Type} {g : Cfg S MapOv} {P : Par S MapOv} (L : Laws g P) (hg : SameMoves g.ov c) (hP : P.RepO = MapRep c) {t : Tab S MapOv}
    {l : List (Nat × Nat)} {m : FMap} (h : Inv g P t l) (ha : Abs l m) : LoopsOv g m t := by
  constructor
  · obtain ⟨l', q1, q2, q3⟩ := h.pairs_map_over L hg hP
    exact ⟨l', q1, q2, fun k v => by rw [ha.get]; exact q3 k v⟩
  · intro hs
    obtain ⟨l', q1, q2, q3⟩ := h.pairsBack_map L hg hP hs
    exact ⟨l', q1, q2, fun k v => by rw [ha.get]; exact q3 k v⟩

/-! ## Debug builds -/

/-- **C135** for debug builds of `separate_chaining_map<..., map_overflow>` -/
theorem C135_separate_debug_overflow_loops (h : SepDbgTabOK k vops vnull maxBucket hk kbits vbits tr W kw vw) (hc : c.good) (hr : c.roomy)
    (hf : DbgFits c (tr vw) vw) {ops : List MapOp} (hops : ∀ op ∈ ops, DbgValid strat hk W kw vw op)
    {t : Tab (SepDbg (DbgB KB) VB) MapOv} {as : List Ans}
    (ht : Tab.run (dbgMapOv k vops vnull strat maxBucket hk kbits c) (Tab.new (dbgMapOv k vops vnull strat maxBucket hk kbits c) kw vw) ops =
      .ok (t, as)) : LoopsOv (dbgMapOv k vops vnull strat maxBucket hk kbits c) (FMap.empty.after (tr vw) ops) t := by
  obtain ⟨KRep, VRep, L0⟩ := h.serial strat false
  obtain ⟨L, hv⟩ := dbg_map_run L0 hc hr hf
  obtain ⟨t', l, h1, h2, ha⟩ := Tab.run_new L L0.grow ops (fun op hop => hv op (hops op hop))
  have ha : Abs l (FMap.empty.after (fitNorm tr vw) ops) := ha
  rw [(FMap.run_congr (f := fitNorm tr vw) (g := tr vw) (fit_eq (Nat.two_pow_pos _)) (fun v hv => fit_eq hv) ops FMap.empty
    (fun op hop => (hops op hop).1)).2] at ha
  have : t' = t := congrArg Prod.fst (Except.ok.inj (h1.symm.trans ht))
  subst t'
  exact h2.loopsOv L ⟨rfl, rfl, rfl⟩ rfl ha

/-- **C135** for debug builds of `group_chaining_table<..., map_overflow>`; here `begin()` is modelled as a loop over the buckets -/
theorem C135_group_debug_overflow_loops (h : GrpOK hk kw vw) (hc : c.good) (hr : c.roomy) (hf : DbgFits c (fun v => v % 2 ^ vw) vw)
    {ops : List MapOp} (hops : ∀ op ∈ ops, GrpDbgValid hk kw vw op) {t : Tab GrpDbg MapOv} {as : List Ans}
    (ht : Tab.run (grpDbgOv g hk c) (Tab.new (grpDbgOv g hk c) kw vw) ops = .ok (t, as)) :
    LoopsOv (grpDbgOv g hk c) (FMap.empty.after (fun v => v % 2 ^ vw) ops) t := by
  obtain ⟨L0, hg, _⟩ := h.dbgPar (g := g)
  have L : Laws (grpDbgOv g hk c) (grpDbgParMap true c g hk kw vw) := L0.setOv (dbg_ov_lawful (tr := fun w v => v % 2 ^ w) hc hr hf)
  obtain ⟨t', l, h1, h2, ha⟩ := Tab.run_new L hg ops (fun op hop => grp_dbg_valid L (hops op hop))
  have ha : Abs l (FMap.empty.after (fitNorm (fun w v => v % 2 ^ w) vw) ops) := ha
  rw [(FMap.run_congr (f := fitNorm (fun w v => v % 2 ^ w) vw) (g := fun v => v % 2 ^ vw) (fit_eq (Nat.two_pow_pos _)) (fun v hv => fit_eq hv)
    ops FMap.empty hops).2] at ha
  have : t' = t := congrArg Prod.fst (Except.ok.inj (h1.symm.trans ht))
  subst t'
  exact h2.loopsOv L ⟨rfl, rfl, rfl⟩ rfl ha

/-! ## `group_chaining_table` -/

/-- `begin()`, grp:1070-1097, with any overflow table -/
def grpBeginOv {O : Type} (c : GrpCfg) (ov : OverflowOps O) (t : Tab GrpStore O) : Res Nav := do
  let r ← grpFirst c t.store t.bpg (grpCount t) 0
  match r with
  | some b => return ⟨b, 0⟩
  | none => if 0 < ov.size t.ovf then return ⟨t.bucketCount, 0⟩ else return Nav.end_

/-- `rbegin_nav()`, grp:1036-1061, with any overflow table -/
def grpRbeginOv {O : Type} (c : GrpCfg) (ov : OverflowOps O) (t : Tab GrpStore O) : Res Nav := do
  if 0 < ov.size t.ovf then return ⟨t.bucketCount, ov.size t.ovf⟩
  if t.bucketCount = 0 then return Nav.end_
  let r ← grpLast c t.store t.bpg (grpCount t)
  match r with
  | some (b, sz) => return ⟨b, sz⟩
  | none => return Nav.end_

/-- `begin()` is the navigator the loop over the buckets would give. -/
theorem Inv.grpBeginOv {O : Type} {ov : OverflowOps O} {P : Par GrpStore O} {sp : Bool} {t : Tab GrpStore O} {l : List (Nat × Nat)}
    (L : Laws (grpTable g hk ov) P) (hP : P.Rep = GrpRep sp) (h : Inv (grpTable g hk ov) P t l) :
    grpBeginOv g ov t = t.beginNav (grpTable g hk ov) := by
  rcases h with ⟨h1, h2, h3, h4, h5, h6, rfl, hst, n, full, h7⟩ | ⟨cont, o, full, h, hp⟩
  · have hb : t.bucketCount = 0 := by simp [Tab.bucketCount, h5]
    have ho : ov.size t.ovf = 0 := L.ovf.size _ _ _ _ h7
    have hn : grpCount t = 0 := by simp [grpCount, h5]
    simp only [SC.grpBeginOv, hn, grpFirst, ok_bind, ho, Nat.lt_irrefl, if_false, Tab.beginNav, hb, Tab.scanUp, grpTable]
  · have hr : GrpRep sp t.store (t.dim (grpTable g hk ov)) cont := by rw [← hP]; exact h.rep
    have hb := h.bpg_le
    have hpos := Nat.two_pow_pos t.tb
    have hn : grpCount t = t.store.n := by
      have := h.tb_pos L
      unfold grpCount
      rw [if_neg (by omega), h.bc L, hr.n]; rfl
    have hcov : 2 ^ t.tb < t.store.n * t.bpg := by
      rw [hr.n]
      show 2 ^ t.tb < (2 ^ t.tb / t.bpg + 1) * t.bpg
      have h1 := Nat.div_add_mod (2 ^ t.tb) t.bpg
      have h2 := Nat.mod_lt (2 ^ t.tb) h.bpg_pos
      rw [Nat.add_mul, Nat.one_mul, Nat.mul_comm]
      omega
    rcases grpFirst_ok (c := g) (show (t.dim (grpTable g hk ov)).bpg ≤ 255 from Nat.le_trans hb (by omega)) hr t.store.n 0
      (by omega) with ⟨b, h1, h2, h3⟩ | ⟨h1, h2⟩
    · have hlt : b < 2 ^ t.tb := Nat.lt_of_not_le (fun hge => h2 (hr.out b hge))
      have hs := scanUp_first L h (2 ^ t.tb) 0 b (by omega) (by omega) (by omega) (fun y hy1 hy2 => h3 y (by omega) hy2) (fun _ => h2)
      have h1' : grpFirst g t.store t.bpg t.store.n 0 = .ok (some b) := h1
      simp only [SC.grpBeginOv, hn, h1', ok_bind, Tab.beginNav, h.bc L, hs, if_pos hlt]
    · have hs := scanUp_first L h (2 ^ t.tb) 0 (2 ^ t.tb) (by omega) (by omega) (by omega) (fun y _ hy2 => h2 y (by omega)
        (Nat.lt_trans hy2 hcov)) (fun hlt => absurd hlt (Nat.lt_irrefl _))
      have h1' : grpFirst g t.store t.bpg t.store.n 0 = .ok none := h1
      simp only [SC.grpBeginOv, hn, h1', ok_bind, Tab.beginNav, h.bc L, hs, Nat.lt_irrefl, if_false]
      rfl

/-- **C135** for `group_chaining_table<..., map_overflow>`, with `begin()` and `rbegin_nav()` as they are written there -/
theorem C135_group_overflow_loops (h : GrpOK hk kw vw) (hc : c.good) (hf : OvFits c (fun v => v % 2 ^ vw)) {ops : List MapOp}
    (hops : ∀ op ∈ ops, OvValid c (fun v => v % 2 ^ vw) hk 64 kw op) {t : Tab GrpStore MapOv} {as : List Ans}
    (ht : Tab.run (grpTable g hk (mapOverflow c)) (Tab.new (grpTable g hk (mapOverflow c)) kw vw) ops = .ok (t, as)) :
    (∃ n l, grpBeginOv g (mapOverflow c) t = .ok n ∧ t.visit (grpTable g hk (mapOverflow c)) (t.size + 1) n = .ok l ∧
      ForwardOv (mapOverflow c) t.ovf (FMap.empty.after (fun v => v % 2 ^ vw) ops) l) ∧
    (0 < (mapOverflow c).size t.ovf → ∃ n l, grpRbeginOv g (mapOverflow c) t = .ok n ∧
      t.visitBack (grpTable g hk (mapOverflow c)) (t.size + 1) n = .ok l ∧
      BackwardOv (mapOverflow c) t.ovf (FMap.empty.after (fun v => v % 2 ^ vw) ops) l) := by
  obtain ⟨L, hg⟩ := grp_ov_laws (gc := g) h hc hf
  obtain ⟨t', l, h1, h2, ha⟩ := Tab.run_new L hg ops (fun op hop => ValidOp.opOK (P := grpParOv c g.strict hk kw vw)
    L.hi_lt L.lo_pos (fun v hv => hv) (show c.val 0 = 0 % 2 ^ vw by rw [Nat.zero_mod]; exact Nat.zero_mod _) (hops op hop))
  have : t' = t := congrArg Prod.fst (Except.ok.inj (h1.symm.trans ht))
  subst t'
  obtain ⟨⟨l1, q1, q2⟩, q3⟩ := h2.loopsOv (c := c) L ⟨rfl, rfl, rfl⟩ rfl ha
  constructor
  · rw [h2.grpBeginOv L rfl]
    unfold Tab.pairs at q1
    obtain ⟨n, e1, e2⟩ := bind_eq_ok q1
    exact ⟨n, l1, e1, e2, q2⟩
  · intro hs
    obtain ⟨l2, e1, e2⟩ := q3 hs
    refine ⟨⟨t.bucketCount, (mapOverflow c).size t.ovf⟩, l2, by simp only [grpRbeginOv, hs, if_true]; rfl, ?_, e2⟩
    have hs' : 0 < (grpTable g hk (mapOverflow c)).ov.size t.ovf := hs
    simp only [Tab.pairsBack, Tab.rbeginNav, hs', if_true, ok_bind] at e1
    exact e1

/-! ## Examples -/

/-- 59 elements, of which four are in the overflow table: the forward loop visits 55 pairs, the backward loop none -/
def dbgOvLoopSizes : Option (Nat × Nat × Nat) :=
  match Tab.run dbgOvEx (Tab.new dbgOvEx 10 20) ovExOps with
  | .ok (t, _) =>
    match t.pairs dbgOvEx, t.pairsBack dbgOvEx with
    | .ok l, .ok l' => some (t.size, l.length, l'.length)
    | _, _ => none
  | .error _ => none

example : dbgOvLoopSizes = some (59, 55, 0) := by decide +kernel

example : ∃ t, Tab.run dbgOvEx (Tab.new dbgOvEx 10 20) ovExOps = .ok (t, FMap.empty.run (fun v => v % 2 ^ 32) ovExOps) ∧
    LoopsOv dbgOvEx (FMap.empty.after (fun v => v % 2 ^ 32) ovExOps) t := by
  obtain ⟨_, t, ht⟩ := C107_separate_debug_overflow dbgExOK ovEx_good ovEx_roomy ovEx_dbgFits .arbitrary ovExOps dbgOvExOps_valid
  exact ⟨t, ht, C135_separate_debug_overflow_loops dbgExOK ovEx_good ovEx_roomy ovEx_dbgFits dbgOvExOps_valid ht⟩

/-- with elements in the overflow table -/
example : ∃ ops, ∃ t : Tab GrpDbg MapOv, t.ovf.items ≠ [] ∧ LoopsOv grpDbgOvEx (FMap.empty.after (fun v => v % 2 ^ 13) ops) t := by
  obtain ⟨ops, hv, t, as, ht, h0⟩ := dbg_spill_ex
  exact ⟨ops, t, h0, C135_group_debug_overflow_loops grpExOK ovEx_good ovEx_roomy ovEx_dbgFits_grp hv ht⟩

/-- with elements in the overflow table, so that both loops are covered -/
example : ∃ ops, ∃ t : Tab GrpStore MapOv, 0 < (mapOverflow ovEx).size t.ovf ∧ ∃ n l n' l', grpBeginOv grpEx (mapOverflow ovEx) t = .ok n ∧
    t.visit (grpTable grpEx (.xorshift 64) (mapOverflow ovEx)) (t.size + 1) n = .ok l ∧
    ForwardOv (mapOverflow ovEx) t.ovf (FMap.empty.after (fun v => v % 2 ^ 13) ops) l ∧ grpRbeginOv grpEx (mapOverflow ovEx) t = .ok n' ∧
    t.visitBack (grpTable grpEx (.xorshift 64) (mapOverflow ovEx)) (t.size + 1) n' = .ok l' := by
  obtain ⟨ops, hv, t, as, ht, h0⟩ := map_spill_ex
  have hs : 0 < (mapOverflow ovEx).size t.ovf := List.length_pos_iff.mpr h0
  obtain ⟨⟨n, l, a1, a2, a3⟩, hb⟩ := C135_group_overflow_loops grpExOK ovEx_good ovEx_fits_grp hv ht
  obtain ⟨n', l', b1, b2, _⟩ := hb hs
  exact ⟨ops, t, hs, n, l, n', l', a1, a2, a3, b1, b2⟩

end SC
