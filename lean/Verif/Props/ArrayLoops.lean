import Verif.Props.DebugArray
import Verif.Props.OverflowLoops
/-!
# Which pairs loops visit in tables with `array_overflow`: C137

The histories are those of C106 and C113, for which the tables work: nothing is erased or cleared, and no key is among the numbers that fresh memory holds.

The assertions of `next_position` and `previous_position` (overflow.hpp:89, 93) are not part of `arrDbg`.  They hold in these loops:
`operator++` comes after `key()`, which has checked that the position is below the length of the array (overflow.hpp:158), and `operator--` is not reached.
-/
namespace SC

variable {KB VB : Type} {p : SepCfg KB VB} {k : DbgCfg KB} {vops : BucketOps VB} {vnull : VB → Bool} {strat : Strategy}
  {maxBucket W kbits vbits kw vw : Nat} {hk : HashKind} {tr : Nat → Nat → Nat} {gc : GrpCfg} {c : ArrEnv} {junk : Nat → Nat}

/-! ## Specification -/

/-- `l` lists the pairs of `m`, every one once -/
def Lists (m : FMap) (l : List (Nat × Nat)) : Prop := (l.map Prod.fst).Nodup ∧ ∀ k v, (k, v) ∈ l ↔ m.get k = some v

/-- The forward loop visits every pair of `m` once.  As soon as an element is in the overflow table, the backward loop visits no pair at all: `rbegin_nav()` is
behind the last position of the overflow table, and thus equal to `rend_nav()`. -/
def LoopsArr {S : Type} (g : Cfg S ArrOv) (m : FMap) (t : Tab S ArrOv) : Prop :=
  (∃ l, t.pairs g = .ok l ∧ Lists m l) ∧ (0 < t.ovf.elems → t.pairsBack g = .ok [])

/-! ## Proof -/

section
variable {S O : Type} {g : Cfg S O} {P : Par S O} {a : OverflowOps O} {K : Nat → Prop} {G : O → Prop}

/-- If the loop starts at the first position of the overflow table, then it visits everything. -/
theorem Inv.pairs_first (L : Laws g P) (h0 : ∀ o, g.ov.firstPosition o = 0) {t : Tab S O} {l : List (Nat × Nat)} {m : FMap} (h : Inv g P t l)
    (ha : Abs l m) : ∃ l', t.pairs g = .ok l' ∧ Lists m l' := by
  rcases h with ⟨h1, h2, h3, h4, h5, h6, rfl, hst, n, full, h7⟩ | ⟨c', o, full, hl, hp⟩
  · refine ⟨[], ?_, by simp, fun k v => (ha.get k v).symm⟩
    have hb : t.bucketCount = 0 := by simp [Tab.bucketCount, h5]
    have ho : g.ov.size t.ovf = 0 := L.ovf.size _ _ _ _ h7
    simp only [Tab.pairs, Tab.beginNav, hb, Tab.scanUp, ok_bind, Nat.lt_irrefl, if_false, ho, pure_eq_ok, Tab.visit,
      navEq_true (show t.tb < 64 by omega) (invalid_end (show t.tb < 64 by omega)), if_true]
  · have hw := L.ovf.walk _ _ _ _ hl.orep
    rw [h0] at hw
    have := hl.pairs_over L (ol := o.map (fun e => e.2)) (fun f hf => visit_over L hl o f 0 (fun e he => he) hw (by simpa using hf))
      (by simp)
    refine ⟨_, this, ents_nodup (hl.map_ok L) hl.cok, fun k v => ?_⟩
    rw [ha.get, hp.mem_iff]
    rfl

theorem scanUp_withOv (t : Tab S O) : ∀ n b, t.scanUp (g.withOv a) n b = t.scanUp g n b := by
  intro n
  induction n with
  | zero => intro b; rfl
  | succ n ih => intro b; simp only [Tab.scanUp, ih]; rfl

theorem next_withOv (A : OvAgree a g.ov K G) (t : Tab S O) (n : Nav) : t.next (g.withOv a) n = t.next g n := by
  unfold Tab.next
  simp only [scanUp_withOv]
  simp only [Cfg.withOv, A.size, A.next]
  rfl

theorem beginNav_withOv (A : OvAgree a g.ov K G) (t : Tab S O) : t.beginNav (g.withOv a) = t.beginNav g := by
  unfold Tab.beginNav
  simp only [scanUp_withOv]
  simp only [Cfg.withOv, A.size]

theorem visit_withOv (A : OvAgree a g.ov K G) (t : Tab S O) : ∀ f n, t.visit (g.withOv a) f n = t.visit g f n := by
  intro f
  induction f with
  | zero => intro n; rfl
  | succ f ih => intro n; simp only [Tab.visit, navEq_withOv A, keyAt_withOv A, valueAt_withOv A, next_withOv A, ih]

theorem pairs_withOv (A : OvAgree a g.ov K G) (t : Tab S O) : t.pairs (g.withOv a) = t.pairs g := by
  simp only [Tab.pairs, beginNav_withOv A, visit_withOv A]

end

theorem Inv.loopsArr {S : Type} {g : Cfg S ArrOv} {P : Par S ArrOv} {a : OverflowOps ArrOv} {K : Nat → Prop} {G : ArrOv → Prop}
    (A : OvAgree a g.ov K G) (L : Laws g P) (h0 : ∀ o, g.ov.firstPosition o = 0) (hs : ∀ o, g.ov.size o = o.elems)
    (hv : ∀ o, g.ov.validPosition o o.elems = false) {t : Tab S ArrOv} {l : List (Nat × Nat)} {m : FMap} (h : Inv g P t l) (ha : Abs l m) :
    LoopsArr (g.withOv a) m t := by
  constructor
  · rw [pairs_withOv A]
    exact h.pairs_first L h0 ha
  · intro hpos
    have htb : t.tb < 64 := by
      rcases h with ⟨_, _, _, _, h5, _⟩ | ⟨_, _, _, hl, _⟩
      · omega
      · exact hl.tb_lt L
    have e1 : (g.withOv a).ov.size t.ovf = t.ovf.elems := (congrFun A.size _).trans (hs _)
    have e2 : (g.withOv a).ov.validPosition t.ovf t.ovf.elems = false := (congrFun (congrFun A.valid _) _).trans (hv _)
    have hinv : t.invalid (g.withOv a) ⟨t.bucketCount, t.ovf.elems⟩ = .ok true := by simp [Tab.invalid, e2]
    simp only [Tab.pairsBack, Tab.rbeginNav, e1, if_pos hpos, ok_bind, Tab.visitBack, navEq_true htb hinv, if_true, pure_eq_ok]

/-! ## C137 -/

/-- **C137** for `separate_chaining_map<..., array_overflow>` -/
theorem C137_separate_array_loops (h : SepOK p hk tr W kw vw) (hf : ArrFits c (tr vw)) {ops : List MapOp}
    (hops : ∀ op ∈ ops, ArrCall c junk (tr vw) hk W kw op) {t : Tab (SepStore KB VB) ArrOv} {as : List Ans}
    (ht : Tab.run (sepMapJunk p hk c junk) (Tab.new (sepMapJunk p hk c junk) kw vw) ops = .ok (t, as)) :
    LoopsArr (sepMapJunk p hk c junk) (FMap.empty.after (tr vw) ops) t := by
  obtain ⟨knorm, KRep, h1, h2, h3⟩ := h.keys.lawful
  obtain ⟨⟨VRep, h4⟩, h5⟩ := h.vals.lawful
  have hM : 2 ≤ p.maxSize := by have := h.max; unfold SepCfg.maxSize; omega
  obtain ⟨L, hg⟩ := sep_laws (ov := arrIdeal c junk) h1 h2 h4 h3 (h5 vw) (lawful_ideal c junk)
    (fun x => Nat.mod_eq_of_lt (hf.wide x)) hM h.hash h.vw_pos h.vw_le true
  have A := junk_agree c junk (NotJunk c junk) (fun k hk => hk.1) (fun i hi hk => hk.2 i hi rfl)
  obtain ⟨t', l, r1, r2, r3, _⟩ := run_withOv (g := sepTable p hk (arrIdeal c junk)) A L hg ops (fun op hop => ⟨ValidOp.opOK L.hi_lt L.lo_pos
    (fun v hv => hv) (show 0 % 2 ^ c.vs = tr vw 0 by rw [hf.zero]; exact Nat.zero_mod _) (hops op hop).1, (hops op hop).2⟩)
  have : t' = t := congrArg Prod.fst (Except.ok.inj (r1.symm.trans ht))
  subst t'
  exact r2.loopsArr (g := sepTable p hk (arrIdeal c junk)) A L (fun _ => rfl) (fun _ => rfl)
    (fun o => by simp [sepTable, arrIdeal, arrJunk, arrOverflow]) r3

/-- **C137** for `group_chaining_table<..., array_overflow>`, with `begin()` and `rbegin_nav()` as they are written there -/
theorem C137_group_array_loops (h : GrpOK hk kw vw) (hf : ArrFits c (fun v => v % 2 ^ vw)) {ops : List MapOp}
    (hops : ∀ op ∈ ops, ArrCall c junk (fun v => v % 2 ^ vw) hk 64 kw op) {t : Tab GrpStore ArrOv} {as : List Ans}
    (ht : Tab.run (grpMapJunk gc hk c junk) (Tab.new (grpMapJunk gc hk c junk) kw vw) ops = .ok (t, as)) :
    (∃ n l, grpBeginOv gc (arrJunk c junk) t = .ok n ∧ t.visit (grpMapJunk gc hk c junk) (t.size + 1) n = .ok l ∧
      Lists (FMap.empty.after (fun v => v % 2 ^ vw) ops) l) ∧
    (0 < t.ovf.elems → ∃ n, grpRbeginOv gc (arrJunk c junk) t = .ok n ∧
      t.visitBack (grpMapJunk gc hk c junk) (t.size + 1) n = .ok []) := by
  have hS := h.hash
  have h3 : 3 ≤ kw := by cases hk <;> exact hS.1
  obtain ⟨hi1, hi2⟩ := ini_bounds (I := 8) h3 (by omega)
  obtain ⟨h4, h5, h6, h7⟩ := HashKind.hashOK (maxE := 255) (cl := 64) hS hi1 hi2 (by omega) (by omega)
  have L : Laws (grpTable gc hk (arrIdeal c junk)) (grpParArr c gc.strict hk kw vw) :=
    laws_of (lawful_grp gc id).weaken (lawful_ideal c junk) h4 h.vw_pos h.vw_le (by simp [grpTable]) (by simp [grpTable])
      (by simp [grpTable]) (by simp [grpTable]) (fun x => Nat.mod_mod _ _) (fun x => Nat.mod_eq_of_lt (hf.wide x)) (show 2 ≤ kw by omega)
      (by simp [grpTable]) rfl h5 h6
  have A := junk_agree c junk (NotJunk c junk) (fun k hk => hk.1) (fun i hi hk => hk.2 i hi rfl)
  obtain ⟨t', l, r1, r2, r3, _⟩ := run_withOv (g := grpTable gc hk (arrIdeal c junk)) A L h7 ops (fun op hop => ⟨ValidOp.opOK L.hi_lt L.lo_pos
    (fun v hv => hv) (show 0 % 2 ^ c.vs = 0 % 2 ^ vw by rw [Nat.zero_mod, Nat.zero_mod]) (hops op hop).1, (hops op hop).2⟩)
  have : t' = t := congrArg Prod.fst (Except.ok.inj (r1.symm.trans ht))
  subst t'
  have hb : grpBeginOv gc (arrJunk c junk) t = t.beginNav (grpMapJunk gc hk c junk) :=
    (show grpBeginOv gc (arrIdeal c junk) t = _ from (r2.grpBeginOv L rfl).trans
      (beginNav_withOv (g := grpTable gc hk (arrIdeal c junk)) A t).symm)
  obtain ⟨⟨l1, q1, q2⟩, q3⟩ := r2.loopsArr (g := grpTable gc hk (arrIdeal c junk)) A L (fun _ => rfl) (fun _ => rfl)
    (fun o => by simp [grpTable, arrIdeal, arrJunk, arrOverflow]) r3
  constructor
  · rw [hb]
    unfold Tab.pairs at q1
    obtain ⟨n, e1, e2⟩ := bind_eq_ok q1
    exact ⟨n, l1, e1, e2, q2⟩
  · intro hs
    have hs' : 0 < (arrJunk c junk).size t.ovf := hs
    have hs'' : 0 < ((grpTable gc hk (arrIdeal c junk)).withOv (arrJunk c junk)).ov.size t.ovf := hs
    have e1 := q3 hs
    refine ⟨⟨t.bucketCount, (arrJunk c junk).size t.ovf⟩, by simp only [grpRbeginOv, hs', if_true]; rfl, ?_⟩
    simp only [Tab.pairsBack, Tab.rbeginNav, hs'', if_true, ok_bind] at e1
    exact e1

/-- **C137** for debug builds of `separate_chaining_map<..., array_overflow>` -/
theorem C137_separate_debug_array_loops (h : SepDbgTabOK k vops vnull maxBucket hk kbits vbits tr W kw vw) (hf : ArrDbgFits c (tr vw) vw)
    {ops : List MapOp} (hops : ∀ op ∈ ops, DbgValid strat hk W kw vw op ∧ op.tame (NotJunk c junk))
    {t : Tab (SepDbg (DbgB KB) VB) ArrOv} {as : List Ans}
    (ht : Tab.run (dbgMapArr k vops vnull strat maxBucket hk kbits c junk)
      (Tab.new (dbgMapArr k vops vnull strat maxBucket hk kbits c junk) kw vw) ops = .ok (t, as)) :
    LoopsArr (dbgMapArr k vops vnull strat maxBucket hk kbits c junk) (FMap.empty.after (tr vw) ops) t := by
  obtain ⟨_, _, L0⟩ := h.serial strat true
  obtain ⟨L, t', l, h1, h2, h3⟩ := dbg_arr_run L0 hf hops
  have : t' = t := congrArg Prod.fst (Except.ok.inj (h1.symm.trans ht))
  subst t'
  exact h2.loopsArr (arr_dbg_agree c junk) L (fun _ => rfl) (fun _ => rfl)
    (fun o => by show decide (o.elems < o.elems) = false; simp) h3

/-- **C137** for debug builds of `group_chaining_table<..., array_overflow>` -/
theorem C137_group_debug_array_loops (h : GrpOK hk kw vw) (hf : ArrDbgFits c (fun v => v % 2 ^ vw) vw)
    {ops : List MapOp} (hops : ∀ op ∈ ops, GrpDbgValid hk kw vw op ∧ op.tame (NotJunk c junk)) {t : Tab GrpDbg ArrOv} {as : List Ans}
    (ht : Tab.run (grpDbgArr gc hk c junk) (Tab.new (grpDbgArr gc hk c junk) kw vw) ops = .ok (t, as)) :
    LoopsArr (grpDbgArr gc hk c junk) (FMap.empty.after (fun v => v % 2 ^ vw) ops) t := by
  obtain ⟨L0, hg, hnew⟩ := h.dbgPar (g := gc)
  have L : Laws ((grpDbg gc hk).setOv (arrDbg c (arrIdeal c junk))) ((grpDbgPar true (grpDbgCfg gc hk) hk kw vw).setOv IdealRep) :=
    L0.setOv (arr_dbg_lawful (tr := fun w v => v % 2 ^ w) hf)
  obtain ⟨t', l, h1, h2, h3, h4⟩ := run_withOv (g := (grpDbg gc hk).setOv (arrDbg c (arrIdeal c junk)))
    (arr_dbg_agree c junk) L hg ops (fun op hop => by
      obtain ⟨v1, v3⟩ := hops op hop
      exact ⟨ValidOp.opOK (vals := fun v => v < 2 ^ vw) L.hi_lt L.lo_pos (fun v hv => (fit_iff (tr := fun w v => v % 2 ^ w)).mpr hv)
        ((fit_iff (tr := fun w v => v % 2 ^ w)).mpr (Nat.two_pow_pos _)) v1 (.inr rfl), v3⟩)
  have h3 : Abs l (FMap.empty.after (fitNorm (fun w v => v % 2 ^ w) vw) ops) := h3
  rw [(FMap.run_congr (f := fitNorm (fun w v => v % 2 ^ w) vw) (g := fun v => v % 2 ^ vw) (fit_eq (Nat.two_pow_pos _))
    (fun v hv => fit_eq hv) ops FMap.empty (fun op hop => (hops op hop).1)).2] at h3
  have : t' = t := congrArg Prod.fst (Except.ok.inj (h1.symm.trans ht))
  subst t'
  exact h2.loopsArr (arr_dbg_agree c junk) L (fun _ => rfl) (fun _ => rfl)
    (fun o => by show decide (o.elems < o.elems) = false; simp) h3

/-! ## Examples -/

/-- sizes of the table, of the overflow table, and of what the loops visit -/
def arrLoopSizes {S : Type} (g : Cfg S ArrOv) (kw vw : Nat) (ops : List MapOp) : Option (Nat × Bool × Nat × Nat) :=
  match Tab.run g (Tab.new g kw vw) ops with
  | .ok (t, _) =>
    match t.pairs g, t.pairsBack g with
    | .ok l, .ok l' => some (t.size, decide (0 < t.ovf.elems), l.length, l'.length)
    | _, _ => none
  | .error _ => none

example : arrLoopSizes (sepMapJunk exCfg (.xorshift 16) zeroEx (fun _ => 0)) 10 20 (zeroExOps.take 60) = some (60, true, 60, 0) := by decide +kernel

example : arrLoopSizes dbgArrEx 10 20 (zeroExOps.take 60) = some (60, true, 60, 0) := by decide +kernel

theorem zeroExTake_ok : ∀ op ∈ zeroExOps.take 60, ArrCall zeroEx (fun _ => 0) (fun v => v % 2 ^ 32) (.xorshift 16) 16 10 op :=
  fun op hop => zeroExOps_ok op (List.mem_of_mem_take hop)

/-- with elements in the overflow table -/
example : ∃ t as, Tab.run (sepMapJunk exCfg (.xorshift 16) zeroEx (fun _ => 0))
    (Tab.new (sepMapJunk exCfg (.xorshift 16) zeroEx (fun _ => 0)) 10 20) (zeroExOps.take 60) = .ok (t, as) ∧
    LoopsArr (sepMapJunk exCfg (.xorshift 16) zeroEx (fun _ => 0)) (FMap.empty.after (fun v => v % 2 ^ 32) (zeroExOps.take 60)) t := by
  obtain ⟨t, ht⟩ := C106_separate_array_partial exOK zeroEx_fits _ zeroExTake_ok
  exact ⟨t, _, ht, C137_separate_array_loops exOK zeroEx_fits zeroExTake_ok ht⟩

example : ∃ t as, Tab.run dbgArrEx (Tab.new dbgArrEx 10 20) (zeroExOps.take 60) = .ok (t, as) ∧
    LoopsArr dbgArrEx (FMap.empty.after (fun v => v % 2 ^ 32) (zeroExOps.take 60)) t := by
  have hv : ∀ op ∈ zeroExOps.take 60, DbgValid .arbitrary (.xorshift 16) 16 10 20 op ∧ op.tame (NotJunk zeroEx (fun _ => 0)) :=
    fun op hop => dbgArrExOps_valid op (List.mem_of_mem_take hop)
  obtain ⟨_, t, ht⟩ := C113_separate_debug_array_partial dbgExOK zeroEx_dbgFits .arbitrary _ hv
  exact ⟨t, _, ht, C137_separate_debug_array_loops dbgExOK zeroEx_dbgFits hv ht⟩

/-- the calls of the examples for group tables -/
def arrLoopOps : List MapOp := [.insert 5 6, .insert 1000 7, .find 5, .size]

theorem arrLoopOps_ok : ∀ op ∈ arrLoopOps, ArrCall zeroEx (fun _ => 0) (fun v => v % 2 ^ 13) (.xorshift 64) 64 11 op := by decide +kernel

theorem zeroEx_fits13 : ArrFits zeroEx (fun v => v % 2 ^ 13) := ⟨rfl, fun _ => Nat.lt_trans (Nat.mod_lt _ (by decide)) (by decide)⟩

theorem zeroEx_dbgFits13 : ArrDbgFits zeroEx (fun v => v % 2 ^ 13) 13 := fun v hv =>
  Eq.trans (Nat.mod_eq_of_lt (Nat.lt_of_lt_of_le hv (show 2 ^ 13 ≤ 2 ^ 32 by decide))) (Nat.mod_eq_of_lt hv).symm

example : ∃ t : Tab GrpStore ArrOv, ∃ n l, grpBeginOv grpEx (arrJunk zeroEx (fun _ => 0)) t = .ok n ∧
    t.visit (grpMapJunk grpEx (.xorshift 64) zeroEx (fun _ => 0)) (t.size + 1) n = .ok l ∧
    Lists (FMap.empty.after (fun v => v % 2 ^ 13) arrLoopOps) l := by
  obtain ⟨t, ht⟩ := C106_group_array_partial (gc := grpEx) grpExOK zeroEx_fits13 _ arrLoopOps_ok
  obtain ⟨⟨n, l, q1, q2, q3⟩, _⟩ := C137_group_array_loops grpExOK zeroEx_fits13 arrLoopOps_ok ht
  exact ⟨t, n, l, q1, q2, q3⟩

example : ∃ t as, Tab.run (grpDbgArr grpEx (.xorshift 64) zeroEx (fun _ => 0)) (Tab.new (grpDbgArr grpEx (.xorshift 64) zeroEx (fun _ => 0)) 11 13)
    arrLoopOps = .ok (t, as) ∧ LoopsArr (grpDbgArr grpEx (.xorshift 64) zeroEx (fun _ => 0)) (FMap.empty.after (fun v => v % 2 ^ 13) arrLoopOps) t := by
  have hv : ∀ op ∈ arrLoopOps, GrpDbgValid (.xorshift 64) 11 13 op ∧ op.tame (NotJunk zeroEx (fun _ => 0)) := by decide +kernel
  obtain ⟨_, t, ht⟩ := C113_group_debug_array_partial (g := grpEx) grpExOK zeroEx_dbgFits13 _ hv
  exact ⟨t, _, ht, C137_group_debug_array_loops grpExOK zeroEx_dbgFits13 hv ht⟩

end SC
