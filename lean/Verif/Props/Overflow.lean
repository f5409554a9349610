import Verif.Overflow.Map
import Verif.Overflow.Array
import Verif.Table.IterOv
import Verif.Props.Table
import Verif.Props.Group
/-!
# Properties of the overflow tables: C50 - C52, C59

`c` is what the implementations of `std::unordered_map` and `tdc::BitVector` are free to choose (number of buckets, bucket of a key,
bits of a resized vector).  A value fits if the overflow table stores the same of it as a bucket does.
-/
namespace SC

variable {KB VB : Type} {p : SepCfg KB VB} {hk : HashKind} {tr : Nat → Nat → Nat} {W kw vw : Nat} {c : MapEnv}

/-! ## C50 -/

/-- `separate_chaining_map<..., map_overflow>` -/
abbrev sepMapOv (p : SepCfg KB VB) (hk : HashKind) (c : MapEnv) : Cfg (SepStore KB VB) MapOv := sepTable p hk (mapOverflow c)

/-- values are stored alike in buckets and in the overflow table; that table's value type is wide enough (this excludes sets, whose
value is constantly 1) -/
structure OvFits (c : MapEnv) (tr : Nat → Nat) : Prop where
  zero : tr 0 = 0
  wide : ∀ v, tr v < 2 ^ c.vbits

/-- valid calls: as without overflow table, and with values that fit -/
abbrev OvValid (c : MapEnv) (tr : Nat → Nat) (hk : HashKind) (W kw : Nat) (op : MapOp) : Prop :=
  ValidOp kw (hk.lo kw W) (hk.width kw - 1) (fun v => v % 2 ^ c.vbits = tr v) op

theorem sep_ov_run (h : SepOK p hk tr W kw vw) (hc : c.good) (hf : OvFits c (tr vw)) {ops : List MapOp}
    (hops : ∀ op ∈ ops, OvValid c (tr vw) hk W kw op) :
    ∃ P t l, Laws (sepMapOv p hk c) P ∧
      Tab.run (sepMapOv p hk c) (Tab.new (sepMapOv p hk c) kw vw) ops = .ok (t, FMap.empty.run (tr vw) ops) ∧
      Inv (sepMapOv p hk c) P t l ∧ Abs l (FMap.empty.after (tr vw) ops) ∧ P.RepO = MapRep c ∧ P.kw = kw ∧
      P.norm P.vw = tr vw ∧ P.grow < 65 ∧ ∀ op, OvValid c (tr vw) hk W kw op → OpOK P op := by
  obtain ⟨knorm, KRep, h1, h2, h3⟩ := h.keys.lawful
  obtain ⟨⟨VRep, h4⟩, h5⟩ := h.vals.lawful
  have hM : 2 ≤ p.maxSize := by have := h.max; unfold SepCfg.maxSize; omega
  obtain ⟨L, hg⟩ := sep_laws (ov := mapOverflow c) h1 h2 h4 h3 (h5 vw) (lawful_map c hc)
    (fun x => Nat.mod_eq_of_lt (hf.wide x)) hM h.hash h.vw_pos h.vw_le true
  have hv : ∀ op, OvValid c (tr vw) hk W kw op → OpOK (sepPar p hk KRep VRep (MapRep c) tr c.val true W kw vw) op := fun op hop =>
    ValidOp.opOK L.hi_lt L.lo_pos (fun v hv => hv) (show c.val 0 = tr vw 0 by rw [hf.zero]; exact Nat.zero_mod _) hop
  obtain ⟨t, l, r1, r2, r3⟩ := Tab.run_new L hg ops (fun op hop => hv op (hops op hop))
  exact ⟨_, t, l, L, r1, r2, r3, rfl, rfl, rfl, hg, hv⟩

/-- **C50**, `separate_chaining_map`: with `map_overflow`, every sequence of calls on a new table runs without fault, terminates, and
gives the answers of a finite map, whatever buckets the `std::unordered_map` chooses. -/
theorem C50_separate_map_overflow (h : SepOK p hk tr W kw vw) (hc : c.good) (hf : OvFits c (tr vw)) (ops : List MapOp)
    (hops : ∀ op ∈ ops, OvValid c (tr vw) hk W kw op) :
    ∃ t, Tab.run (sepMapOv p hk c) (Tab.new (sepMapOv p hk c) kw vw) ops = .ok (t, FMap.empty.run (tr vw) ops) := by
  obtain ⟨_, t, _, _, h1, _⟩ := sep_ov_run h hc hf hops
  exact ⟨t, h1⟩

/-- an environment in which no element is ever in bucket 0 of the map, unless there is only one bucket -/
def ovEx : MapEnv where
  bkt n k := if n = 1 then 0 else 1 + k % (n - 1)
  init := 1
  grow _ n := min (max n 1) (NPOS - 1)
  fresh b _ _ := b
  vbits := 32

theorem ovEx_good : ovEx.good where
  bkt_lt := by
    intro n k hn
    simp only [ovEx]
    split
    · omega
    · have := Nat.mod_lt k (show n - 1 > 0 by omega)
      omega
  init_pos := by decide
  init_lt := by decide
  grow_pos := by intro n m; simp only [ovEx]; have : NPOS = 2 ^ 64 - 1 := rfl; omega
  grow_lt := by intro n m; simp only [ovEx]; have : NPOS = 2 ^ 64 - 1 := rfl; omega

theorem ovEx_fits : OvFits ovEx (fun v => v % 2 ^ 32) := ⟨rfl, fun _ => Nat.mod_lt _ (by decide)⟩

instance (c : MapEnv) (tr : Nat → Nat) (hk : HashKind) (W kw : Nat) (op : MapOp) : Decidable (OvValid c tr hk W kw op) :=
  inferInstanceAs (Decidable (ValidOp _ _ _ _ _))

/-- 60 insertions fill some buckets -/
def ovExOps : List MapOp := (List.range 60).map (fun i => .insert (17 * i) (1000 + i)) ++ [.assign 34 7, .erase 51, .find 34, .size]

theorem ovExOps_valid : ∀ op ∈ ovExOps, OvValid ovEx (fun v => v % 2 ^ 32) (.xorshift 16) 16 10 op := by decide +kernel

/-- after the example, four pairs are in the overflow table -/
theorem ovExAfter : ∃ t as, Tab.run (sepMapOv exCfg (.xorshift 16) ovEx) (Tab.new (sepMapOv exCfg (.xorshift 16) ovEx) 10 20) ovExOps =
    .ok (t, as) ∧ t.size = 59 ∧ t.ovf.items.length = 4 := by
  have h : (match Tab.run (sepMapOv exCfg (.xorshift 16) ovEx) (Tab.new (sepMapOv exCfg (.xorshift 16) ovEx) 10 20) ovExOps with
    | .ok (t, _) => t.size == 59 && t.ovf.items.length == 4
    | .error _ => false) = true := by decide +kernel
  revert h
  cases Tab.run (sepMapOv exCfg (.xorshift 16) ovEx) (Tab.new (sepMapOv exCfg (.xorshift 16) ovEx) 10 20) ovExOps with
  | error e => intro h; cases h
  | ok r =>
    intro h
    simp only [Bool.and_eq_true, beq_iff_eq] at h
    exact ⟨r.1, r.2, rfl, h.1, h.2⟩

example : ∃ t, Tab.run (sepMapOv exCfg (.xorshift 16) ovEx) (Tab.new (sepMapOv exCfg (.xorshift 16) ovEx) 10 20) ovExOps =
    .ok (t, FMap.empty.run (fun v => v % 2 ^ 32) ovExOps) := C50_separate_map_overflow exOK ovEx_good ovEx_fits ovExOps ovExOps_valid

/-- `group_chaining_table<hash_mapping, overflow>`; `grpMap` is the case of `dummy_overflow` -/
def grpTable {O : Type} (gc : GrpCfg) (hk : HashKind) (ov : OverflowOps O) : Cfg GrpStore O where
  ops := grpOps gc
  ov := ov
  hash := hk.mapping
  initBuckets := 8
  initBpg := 3
  rehashBpg := 64
  noStore := { n := 0, grp := fun _ => Group.none }

example (gc : GrpCfg) (hk : HashKind) : grpTable gc hk dummyOverflow = grpMap gc hk := rfl

/-- parameters of the correctness argument -/
def grpParOv (c : MapEnv) (sp : Bool) (hk : HashKind) (kw vw : Nat) : Par GrpStore MapOv where
  Rep := GrpRep sp
  RepO := MapRep c
  norm := fun w v => v % 2 ^ w
  normO := c.val
  maxE := 255
  cl := 64
  W := 64
  kw := kw
  vw := vw
  lo := hk.lo kw 64
  hi := hk.width kw - 1
  ini := grpIni kw
  grow := hk.grow kw 255 64

theorem grp_ov_laws {gc : GrpCfg} (h : GrpOK hk kw vw) (hc : c.good) (hf : OvFits c (fun v => v % 2 ^ vw)) :
    Laws (grpTable gc hk (mapOverflow c)) (grpParOv c gc.strict hk kw vw) ∧ hk.grow kw 255 64 < 65 := by
  have hS := h.hash
  have h3 : 3 ≤ kw := by cases hk <;> exact hS.1
  obtain ⟨hi1, hi2⟩ := ini_bounds (I := 8) h3 (by omega)
  obtain ⟨h4, h5, h6, h7⟩ := HashKind.hashOK (maxE := 255) (cl := 64) hS hi1 hi2 (by omega) (by omega)
  exact ⟨laws_of (lawful_grp gc id).weaken (lawful_map c hc) h4 h.vw_pos h.vw_le (by simp [grpTable]) (by simp [grpTable])
    (by simp [grpTable]) (by simp [grpTable]) (fun x => Nat.mod_mod _ _) (fun x => Nat.mod_eq_of_lt (hf.wide x)) (show 2 ≤ kw by omega)
    (by simp [grpTable]) rfl h5 h6, h7⟩

/-- **C50**, `group_chaining_table`. -/
theorem C50_group_map_overflow {gc : GrpCfg} (h : GrpOK hk kw vw) (hc : c.good) (hf : OvFits c (fun v => v % 2 ^ vw)) (ops : List MapOp)
    (hops : ∀ op ∈ ops, OvValid c (fun v => v % 2 ^ vw) hk 64 kw op) :
    ∃ t, Tab.run (grpTable gc hk (mapOverflow c)) (Tab.new (grpTable gc hk (mapOverflow c)) kw vw) ops =
      .ok (t, FMap.empty.run (fun v => v % 2 ^ vw) ops) := by
  obtain ⟨L, hg⟩ := grp_ov_laws (gc := gc) h hc hf
  obtain ⟨t, l, r1, _⟩ := Tab.run_new L hg ops (fun op hop => ValidOp.opOK (P := grpParOv c gc.strict hk kw vw)
    L.hi_lt L.lo_pos (fun v hv => hv) (show c.val 0 = 0 % 2 ^ vw by rw [Nat.zero_mod]; exact Nat.zero_mod _) (hops op hop))
  exact ⟨t, r1⟩

theorem ovEx_fits_grp : OvFits ovEx (fun v => v % 2 ^ 13) :=
  ⟨rfl, fun _ => Nat.lt_trans (Nat.mod_lt _ (by decide)) (by decide)⟩

example : ∃ t, Tab.run (grpTable grpEx (.xorshift 64) (mapOverflow ovEx)) (Tab.new (grpTable grpEx (.xorshift 64) (mapOverflow ovEx)) 11 13)
    [.insert 5 6, .insert 1000 7, .find 5, .erase 5, .size] =
    .ok (t, FMap.empty.run (fun v => v % 2 ^ 13) [.insert 5 6, .insert 1000 7, .find 5, .erase 5, .size]) :=
  C50_group_map_overflow grpExOK ovEx_good ovEx_fits_grp _ (by decide +kernel)

/-! ## C52 -/

/-- **C52** is false: the forward loop misses all elements that are in the overflow table. -/
theorem C52_forward_overflow_false :
    ¬ ∀ (ops : List MapOp) (t : Tab (SepStore PlainB PlainB) MapOv) (as : List Ans) (k v : Nat) (l : List (Nat × Nat)),
      (∀ op ∈ ops, OvValid ovEx (fun v => v % 2 ^ 32) (.xorshift 16) 16 10 op) →
      Tab.run (sepMapOv exCfg (.xorshift 16) ovEx) (Tab.new (sepMapOv exCfg (.xorshift 16) ovEx) 10 20) ops = .ok (t, as) →
      t.lookup (sepMapOv exCfg (.xorshift 16) ovEx) k = .ok (some (k, v)) →
      t.pairs (sepMapOv exCfg (.xorshift 16) ovEx) = .ok l → (k, v) ∈ l := by
  intro hall
  have h : (match Tab.run (sepMapOv exCfg (.xorshift 16) ovEx) (Tab.new (sepMapOv exCfg (.xorshift 16) ovEx) 10 20) ovExOps with
    | .ok (t, _) => match t.lookup (sepMapOv exCfg (.xorshift 16) ovEx) 850, t.pairs (sepMapOv exCfg (.xorshift 16) ovEx) with
      | .ok r, .ok l => r == some (850, 1050) && !l.contains (850, 1050)
      | _, _ => false
    | .error _ => false) = true := by decide +kernel
  cases hr : Tab.run (sepMapOv exCfg (.xorshift 16) ovEx) (Tab.new (sepMapOv exCfg (.xorshift 16) ovEx) 10 20) ovExOps with
  | error e => rw [hr] at h; cases h
  | ok r =>
    rw [hr] at h
    simp only at h
    cases h1 : r.1.lookup (sepMapOv exCfg (.xorshift 16) ovEx) 850 with
    | error e => rw [h1] at h; cases h
    | ok x =>
      cases h2 : r.1.pairs (sepMapOv exCfg (.xorshift 16) ovEx) with
      | error e => rw [h1, h2] at h; cases h
      | ok l =>
        rw [h1, h2] at h
        simp only [Bool.and_eq_true, beq_iff_eq] at h
        obtain ⟨h3, h4⟩ := h
        have := hall ovExOps r.1 r.2 850 1050 l ovExOps_valid hr (by rw [h1, h3]) h2
        simp [this] at h4

/-- position 0 is valid exactly if it is the first position -/
theorem MapRep.first_zero {o : MapOv} {n : Nat} {l : List (Nat × Nat × Nat)} {full : Nat → Bool} (_ : MapRep c o n l full)
    (hv : (mapOverflow c).validPosition o 0 = true) : (mapOverflow c).firstPosition o = 0 := by
  simp only [mapOverflow, Bool.and_eq_true, decide_eq_true_eq] at hv ⊢
  obtain ⟨m, hm⟩ : ∃ m, o.count = m + 1 := ⟨o.count - 1, by omega⟩
  rw [hm, MapOv.scan, if_neg]
  rintro ⟨_, h2⟩
  rw [Option.isNone_iff_eq_none] at h2
  rw [h2] at hv
  exact absurd hv.2 (by simp)

/-- the positions are found as by `mapOverflow c`; this holds for `mapOverflow c` itself and with assertions -/
def SameMoves (ov : OverflowOps MapOv) (c : MapEnv) : Prop :=
  ov.validPosition = (mapOverflow c).validPosition ∧ ov.firstPosition = (mapOverflow c).firstPosition ∧
    ov.previousPosition = (mapOverflow c).previousPosition

theorem Inv.pairs_map_over {S : Type} {g : Cfg S MapOv} {P : Par S MapOv} (L : Laws g P) (hg : SameMoves g.ov c)
    (hP : P.RepO = MapRep c) {t : Tab S MapOv} {l : List (Nat × Nat)} (h : Inv g P t l) :
    ∃ l', t.pairs g = .ok l' ∧ (l'.map Prod.fst).Nodup ∧
      ∀ k v, (k, v) ∈ l' ↔ (k, v) ∈ l ∧ (g.ov.validPosition t.ovf 0 = true ∨ g.ov.find t.ovf k = .ok NPOS) := by
  rcases h with ⟨h1, h2, h3, h4, h5, h6, rfl, hst, n, full, h7⟩ | ⟨c', o, full, hl, hp⟩
  · refine ⟨[], ?_, by simp, by simp⟩
    have hb : t.bucketCount = 0 := by simp [Tab.bucketCount, h5]
    have ho : g.ov.size t.ovf = 0 := L.ovf.size _ _ _ _ h7
    simp only [Tab.pairs, Tab.beginNav, hb, Tab.scanUp, ok_bind, Nat.lt_irrefl, if_false, ho, pure_eq_ok, Tab.visit,
      navEq_true (show t.tb < 64 by omega) (invalid_end (show t.tb < 64 by omega)), if_true]
  · have hnd := ents_nodup (hl.map_ok L) hl.cok
    have hrep : MapRep c t.ovf (2 ^ t.tb) o full := by rw [← hP]; exact hl.orep
    by_cases hv : g.ov.validPosition t.ovf 0 = true
    · have hw := L.ovf.walk _ _ _ _ hl.orep
      have hfirst : g.ov.firstPosition t.ovf = 0 := by rw [hg.1] at hv; rw [hg.2.1]; exact hrep.first_zero hv
      rw [hfirst] at hw
      have := hl.pairs_over L (ol := o.map (fun e => e.2)) (fun f hf => visit_over L hl o f 0 (fun e he => he) hw (by simpa using hf))
        (by simp)
      refine ⟨_, this, hnd, ?_⟩
      intro k v
      rw [hp.mem_iff]
      simp only [hv, true_or, and_true]
      rfl
    · have hv' : g.ov.validPosition t.ovf 0 = false := by simpa using hv
      have := hl.pairs_over L (ol := []) (fun f hf => visit_over L hl [] f 0 (by simp) hv' hf) (by simp)
      rw [List.append_nil] at this
      unfold ents at hnd hp
      rw [List.map_append] at hnd
      refine ⟨_, this, (List.nodup_append.mp hnd).1, ?_⟩
      intro k v
      rw [hp.mem_iff, List.mem_append]
      simp only [hv', Bool.false_eq_true, false_or]
      obtain ⟨q, hq, hcase⟩ := hl.ofind L k
      rw [hq]
      constructor
      · intro hkv
        refine ⟨.inl hkv, ?_⟩
        rcases hcase with ⟨rfl, _⟩ | ⟨_, v', hv'⟩
        · rfl
        · exfalso
          exact (List.nodup_append.mp hnd).2.2 k (List.mem_map_of_mem (f := Prod.fst) hkv) k
            (by rw [List.map_map]; exact List.mem_map.mpr ⟨_, hv', rfl⟩) rfl
      · rintro ⟨hkv | hkv, hn⟩
        · exact hkv
        · obtain ⟨e, he, hee⟩ := List.mem_map.mp hkv
          rcases hcase with ⟨rfl, hno⟩ | ⟨hne, _⟩
          · exact absurd (by rw [hee]) (hno e he)
          · cases hn; exact absurd rfl hne

/-- The part of **C52** that holds, and exactly what is missing: the forward loop terminates and visits no key twice; it visits the stored
pairs that are in buckets, and those in the overflow table exactly if position 0 of that table is occupied (because the loop starts
there instead of at `first_position()`). -/
theorem C52_forward_overflow_partial (h : SepOK p hk tr W kw vw) (hc : c.good) (hf : OvFits c (tr vw)) {ops : List MapOp}
    (hops : ∀ op ∈ ops, OvValid c (tr vw) hk W kw op) {t : Tab (SepStore KB VB) MapOv} {as : List Ans}
    (ht : Tab.run (sepMapOv p hk c) (Tab.new (sepMapOv p hk c) kw vw) ops = .ok (t, as)) :
    ∃ l, t.pairs (sepMapOv p hk c) = .ok l ∧ (l.map Prod.fst).Nodup ∧
      ∀ k v, (k, v) ∈ l ↔ (FMap.empty.after (tr vw) ops).get k = some v ∧
        ((mapOverflow c).validPosition t.ovf 0 = true ∨ (mapOverflow c).find t.ovf k = .ok NPOS) := by
  obtain ⟨P, t', l, L, h1, h2, h3, h4, h5⟩ := sep_ov_run h hc hf hops
  rw [ht] at h1
  cases h1
  obtain ⟨l', q1, q2, q3⟩ := h2.pairs_map_over L ⟨rfl, rfl, rfl⟩ h4
  refine ⟨l', q1, q2, ?_⟩
  intro k v
  rw [h3.get]
  exact q3 k v

/-- in the example, position 0 is not occupied and four of 59 pairs are missed -/
example : ∃ t as l, Tab.run (sepMapOv exCfg (.xorshift 16) ovEx) (Tab.new (sepMapOv exCfg (.xorshift 16) ovEx) 10 20) ovExOps =
    .ok (t, as) ∧ t.pairs (sepMapOv exCfg (.xorshift 16) ovEx) = .ok l ∧ (l.map Prod.fst).Nodup := by
  obtain ⟨t, as, ht, _⟩ := ovExAfter
  obtain ⟨l, h1, h2, _⟩ := C52_forward_overflow_partial exOK ovEx_good ovEx_fits ovExOps_valid ht
  exact ⟨t, as, l, ht, h1, h2⟩

/-! ## C51, C59 -/

variable {a : ArrEnv}

/-- The states of an `array_overflow` that can be reached from a new one by calls with valid arguments (`insert` is called by the
hash tables only if `size() < capacity()`). -/
inductive ArrReach (a : ArrEnv) : ArrOv → Prop
  | new (kw vw : Nat) : ArrReach a ((arrOverflow a).new kw vw)
  | resize {o o' : ArrOv} (n : Nat) : ArrReach a o → (arrOverflow a).resizeBuckets o n = .ok o' → ArrReach a o'
  | insert {o o' : ArrOv} {pos : Nat} (b k v : Nat) : ArrReach a o → b < o.nbits → (arrOverflow a).size o < (arrOverflow a).capacity o →
      (arrOverflow a).insert o b k v = .ok (o', pos) → ArrReach a o'
  | write {o o' : ArrOv} (p v : Nat) : ArrReach a o → p < (arrOverflow a).size o → (arrOverflow a).write o p v = .ok o' → ArrReach a o'
  | erase {o o' : ArrOv} (p : Nat) : ArrReach a o → p < (arrOverflow a).size o → (arrOverflow a).erase o p = .ok o' → ArrReach a o'

/-- what `key(i)` and `operator[](i)` return for `i < size()` -/
def ArrOv.content (a : ArrEnv) (o : ArrOv) : Res (List (Nat × Nat)) :=
  (List.range ((arrOverflow a).size o)).mapM (fun i => do
    let k ← (arrOverflow a).key o i
    let v ← (arrOverflow a).read o i
    return (k, v))

theorem ArrReach.rep {o : ArrOv} (h : ArrReach a o) : ∃ l, ArrRep a o l := by
  induction h with
  | new kw vw => exact ⟨_, ArrRep.new a kw vw⟩
  | resize n _ hr ih =>
    obtain ⟨l, h1, h2, h3, h4⟩ := ih
    cases hr
    exact ⟨l, h1, h2, h3, h4⟩
  | insert b k v _ hb hs hi ih =>
    obtain ⟨l, hl⟩ := ih
    obtain ⟨o'', h1, h2⟩ := hl.insert (k := k) (v := v) hb hs
    rw [h1] at hi
    cases hi
    exact ⟨_, h2⟩
  | write p v _ hp he ih =>
    obtain ⟨l, hl⟩ := ih
    obtain ⟨o'', h1, h2, _⟩ := hl.write (p := p) (v := v) (by rw [← hl.elems]; exact hp)
    rw [h1] at he
    cases he
    exact ⟨_, h2⟩
  | erase p _ hp he ih =>
    obtain ⟨l, hl⟩ := ih
    obtain ⟨o'', h1, h2, _⟩ := hl.erase (p := p) (by rw [← hl.elems]; exact hp)
    rw [h1] at he
    cases he
    exact ⟨_, h2⟩

theorem ArrRep.content {o : ArrOv} {l : List (Nat × Nat)} (h : ArrRep a o l) : o.content a = .ok l := by
  unfold ArrOv.content
  rw [mapM_ok (h := fun i => l.getD i default)]
  · refine congrArg Except.ok (List.ext_getElem (by rw [List.length_map, List.length_range]; exact h.elems) ?_)
    intro i h1 h2
    simp [h2]
  · intro i hi
    have hi' : i < l.length := by rw [← h.elems]; exact List.mem_range.mp hi
    simp only [h.key hi', h.read hi', ok_bind, pure_eq_ok]
    simp [hi']

/-- 8-bit keys and values -/
def arrEx : ArrEnv := ⟨8, 8, fun b _ _ => b⟩

/-- a reachable array with the pairs (1, 10), (2, 20), (3, 30) -/
theorem arrEx_reach : ∃ o, ArrReach arrEx o ∧ o.elems = 3 ∧ o.content arrEx = .ok [(1, 10), (2, 20), (3, 30)] := by
  have r1 := ArrReach.resize (a := arrEx) 4 (ArrReach.new 8 8) rfl
  obtain ⟨o1, h1, e1⟩ := (ArrRep.mk (c := arrEx) (l := []) (o := { (arrOverflow arrEx).new 8 8 with bits := fun _ => false, nbits := 4 })
    rfl (ArrRep.new arrEx 8 8).keys (ArrRep.new arrEx 8 8).vals (by simp)).insert (b := 2) (k := 1) (v := 10) (by decide) (by decide)
  have r2 := r1.insert 2 1 10 (by decide) (by decide) h1
  have n1 : o1.nbits = 4 := by
    simp only [arrOverflow, if_pos (show 2 < 4 by decide)] at h1
    obtain ⟨_, _, h1⟩ := bind_eq_ok h1
    obtain ⟨_, _, h1⟩ := bind_eq_ok h1
    cases h1; rfl
  obtain ⟨o2, h2, e2⟩ := e1.insert (b := 2) (k := 2) (v := 20) (by rw [n1]; decide) (by rw [e1.elems]; decide)
  have r3 := r2.insert 2 2 20 (by rw [n1]; decide) (by show o1.elems < 256; rw [e1.elems]; decide) h2
  have n2 : o2.nbits = 4 := by
    simp only [arrOverflow, if_pos (show 2 < o1.nbits by rw [n1]; decide)] at h2
    obtain ⟨_, _, h2⟩ := bind_eq_ok h2
    obtain ⟨_, _, h2⟩ := bind_eq_ok h2
    simp only [pure_eq_ok, Except.ok.injEq, Prod.mk.injEq] at h2
    rw [← h2.1]; exact n1
  obtain ⟨o3, h3, e3⟩ := e2.insert (b := 2) (k := 3) (v := 30) (by rw [n2]; decide) (by rw [e2.elems]; decide)
  have r4 := r3.insert 2 3 30 (by rw [n2]; decide) (by show o2.elems < 256; rw [e2.elems]; decide) h3
  exact ⟨o3, r4, e3.elems, e3.content⟩

/-- The part of **C51** that holds, and what happens otherwise: `erase(p)` always removes the last pair, whatever `p` is; so it is right
for the last position.  Missing: all other positions, for which it is wrong. -/
theorem C51_array_erase_partial {o : ArrOv} (h : ArrReach a o) {p : Nat} (hp : p < (arrOverflow a).size o) :
    ∃ l o', o.content a = .ok l ∧ (arrOverflow a).erase o p = .ok o' ∧ o'.content a = .ok l.dropLast ∧
      (p + 1 = (arrOverflow a).size o → o'.content a = .ok (l.eraseIdx p)) := by
  obtain ⟨l, hl⟩ := h.rep
  have hs : (arrOverflow a).size o = l.length := hl.elems
  rw [hs] at hp
  obtain ⟨o', h1, h2, _⟩ := hl.erase hp
  refine ⟨l, o', hl.content, h1, h2.content, ?_⟩
  intro hlast
  rw [hs] at hlast
  rw [h2.content, List.dropLast_eq_take, List.eraseIdx_eq_take_drop_succ, List.drop_eq_nil_of_le (by omega), List.append_nil]
  congr 2
  omega

example : ∃ o l o', ArrReach arrEx o ∧ o.content arrEx = .ok l ∧ (arrOverflow arrEx).erase o 2 = .ok o' ∧
    o'.content arrEx = .ok (l.eraseIdx 2) := by
  obtain ⟨o, h1, h2, h3⟩ := arrEx_reach
  obtain ⟨l, o', q1, q2, q3, q4⟩ := C51_array_erase_partial h1 (p := 2) (by show 2 < o.elems; omega)
  exact ⟨o, l, o', h1, q1, q2, q4 (by show 3 = o.elems; omega)⟩

/-- **C51** is false: erasing position 0 of three pairs removes the pair at position 2. -/
theorem C51_array_erase_false : ¬ ∀ (o o' : ArrOv) (p : Nat) (l : List (Nat × Nat)), ArrReach arrEx o → p < (arrOverflow arrEx).size o →
    o.content arrEx = .ok l → (arrOverflow arrEx).erase o p = .ok o' → o'.content arrEx = .ok (l.eraseIdx p) := by
  intro hall
  obtain ⟨o, h1, h2, h3⟩ := arrEx_reach
  have hp : 0 < (arrOverflow arrEx).size o := by show 0 < o.elems; omega
  obtain ⟨l, o', q1, q2, q3, _⟩ := C51_array_erase_partial h1 hp
  have := hall o o' 0 l h1 hp q1 q2
  rw [q3] at this
  rw [h3] at q1
  cases q1
  cases this

/-- The part of **C59** that holds: `find` of a stored key returns its (first) position, and of any other key -1 if all 256 entries are in
use.  Missing: `find` of a key that is not stored otherwise. -/
theorem C59_array_find_partial {o : ArrOv} (h : ArrReach a o) {l : List (Nat × Nat)} (hl : o.content a = .ok l) {k : Nat} (hk : k < 2 ^ a.ks) :
    (k ∈ l.map Prod.fst → (arrOverflow a).find o k = .ok ((l.map Prod.fst).idxOf k)) ∧
    ((arrOverflow a).size o = 256 → k ∉ l.map Prod.fst → (arrOverflow a).find o k = .ok NPOS) := by
  obtain ⟨l', hl'⟩ := h.rep
  rw [hl'.content] at hl
  cases hl
  have e : k % 2 ^ a.ks = k := Nat.mod_eq_of_lt hk
  constructor
  · intro hm
    have := hl'.find_in (k := k) (by rw [e]; exact hm)
    rw [e] at this
    exact this
  · intro hs hm
    exact hl'.find_out_full (by rw [← hl'.elems]; exact hs) (by rw [e]; exact hm)

example : ∃ o, ArrReach arrEx o ∧ (arrOverflow arrEx).find o 3 = .ok 2 := by
  obtain ⟨o, h1, h2, h3⟩ := arrEx_reach
  exact ⟨o, h1, (C59_array_find_partial h1 h3 (k := 3) (by decide)).1 (by decide)⟩

/-- **C59** is false: in a new array, `find` compares the key with entries that were never written. -/
theorem C59_array_find_false : ¬ ∀ (o : ArrOv) (l : List (Nat × Nat)) (k : Nat), ArrReach arrEx o → o.content arrEx = .ok l → k < 2 ^ arrEx.ks →
    k ∉ l.map Prod.fst → (arrOverflow arrEx).find o k = .ok NPOS := by
  intro hall
  have h1 := hall _ [] 5 (ArrReach.new 8 8) (ArrRep.new arrEx 8 8).content (by decide) (by simp)
  have h2 : (arrOverflow arrEx).find ((arrOverflow arrEx).new 8 8) 5 = .error .uninit := rfl
  rw [h2] at h1
  cases h1

/-- **C59** is false also for keys that were erased: `find` returns a position that is not valid any more. -/
theorem C59_array_find_erased_false : ∃ (o : ArrOv) (l : List (Nat × Nat)) (k : Nat), ArrReach arrEx o ∧ o.content arrEx = .ok l ∧
    k ∉ l.map Prod.fst ∧ (arrOverflow arrEx).find o k = .ok 2 ∧ (arrOverflow arrEx).validPosition o 2 = false := by
  obtain ⟨o, h1, h2, h3⟩ := arrEx_reach
  have hp : 0 < (arrOverflow arrEx).size o := by show 0 < o.elems; omega
  obtain ⟨l, hl⟩ := h1.rep
  have hc := hl.content
  rw [h3] at hc
  cases hc
  have hf := hl.find_in (k := 3) (by decide)
  obtain ⟨o', q1, q2, _⟩ := hl.erase (p := 0) (by decide)
  refine ⟨o', _, 3, h1.erase 0 hp q1, q2.content, by decide, ?_, ?_⟩
  · have hk : o'.keys = o.keys := by
      have hloop : ArrOv.eraseLoop arrEx 0 o.elems o.keys o.vals = .ok (o.keys, o.vals) := by rw [h2]; rfl
      simp only [arrOverflow, hloop, ok_bind, pure_eq_ok] at q1
      cases q1; rfl
    have : (arrOverflow arrEx).find o' 3 = (arrOverflow arrEx).find o 3 := by simp only [arrOverflow, hk]
    rw [this, hf]; rfl
  · show decide (2 < o'.elems) = false
    rw [q2.elems]; rfl

end SC
