import Verif.Overflow.Junk
import Verif.Props.OverflowBack
/-!
# Tables with `array_overflow` (C106)
-/
namespace SC

variable {KB VB : Type} {p : SepCfg KB VB} {hk : HashKind} {tr : Nat → Nat → Nat} {W kw vw : Nat} {c : ArrEnv} {junk : Nat → Nat}

/-- `separate_chaining_map` with `array_overflow` on memory that holds the numbers `junk` -/
abbrev sepMapJunk (p : SepCfg KB VB) (hk : HashKind) (c : ArrEnv) (junk : Nat → Nat) : Cfg (SepStore KB VB) ArrOv :=
  sepTable p hk (arrJunk c junk)

/-- `group_chaining_table` with `array_overflow` on memory that holds the numbers `junk` -/
abbrev grpMapJunk (gc : GrpCfg) (hk : HashKind) (c : ArrEnv) (junk : Nat → Nat) : Cfg GrpStore ArrOv := grpTable gc hk (arrJunk c junk)

/-- `k` is a key, and none of the numbers that a fresh array of keys holds -/
def NotJunk (c : ArrEnv) (junk : Nat → Nat) (k : Nat) : Prop := k < 2 ^ c.ks ∧ ∀ i < arrLength, junk i % 2 ^ c.ks ≠ k

instance : DecidablePred (NotJunk c junk) := fun _ => inferInstanceAs (Decidable (_ ∧ _))

instance (K : Nat → Prop) [DecidablePred K] (op : MapOp) : Decidable (op.tame K) := by
  cases op <;> unfold MapOp.tame <;> infer_instance

/-- `value_type` of the overflow table holds the values of the table -/
structure ArrFits (c : ArrEnv) (tr : Nat → Nat) : Prop where
  zero : tr 0 = 0
  wide : ∀ v, tr v < 2 ^ c.vs

/-- Calls that work: the keys are no junk, nothing is erased or cleared, and the values fit. -/
abbrev ArrCall (c : ArrEnv) (junk : Nat → Nat) (tr : Nat → Nat) (hk : HashKind) (W kw : Nat) (op : MapOp) : Prop :=
  ValidOp kw (hk.lo kw W) (hk.width kw - 1) (fun v => v % 2 ^ c.vs = tr v) op ∧ op.tame (NotJunk c junk)

/-- **C106**, true part, `separate_chaining_map`: with `array_overflow`, every sequence of calls runs without fault,
terminates, and gives the answers of a finite map, if it neither erases nor clears, and mentions no key that is among the
numbers that the uninitialised array happens to hold.  Missing: `erase`, `clear` and the other keys, see
`C106_junk_key_false`, `C106_erase_false` and `C65_table_clear_false`. -/
theorem C106_separate_array_partial (h : SepOK p hk tr W kw vw) (hf : ArrFits c (tr vw)) (ops : List MapOp)
    (hops : ∀ op ∈ ops, ArrCall c junk (tr vw) hk W kw op) :
    ∃ t, Tab.run (sepMapJunk p hk c junk) (Tab.new (sepMapJunk p hk c junk) kw vw) ops = .ok (t, FMap.empty.run (tr vw) ops) := by
  obtain ⟨knorm, KRep, h1, h2, h3⟩ := h.keys.lawful
  obtain ⟨⟨VRep, h4⟩, h5⟩ := h.vals.lawful
  have hM : 2 ≤ p.maxSize := by have := h.max; unfold SepCfg.maxSize; omega
  obtain ⟨L, hg⟩ := sep_laws (ov := arrIdeal c junk) h1 h2 h4 h3 (h5 vw) (lawful_ideal c junk)
    (fun x => Nat.mod_eq_of_lt (hf.wide x)) hM h.hash h.vw_pos h.vw_le true
  have A := junk_agree c junk (NotJunk c junk) (fun k hk => hk.1) (fun i hi hk => hk.2 i hi rfl)
  obtain ⟨t, l, r1, _⟩ := run_withOv (g := sepTable p hk (arrIdeal c junk)) A L hg ops (fun op hop => ⟨ValidOp.opOK L.hi_lt L.lo_pos
    (fun v hv => hv) (show 0 % 2 ^ c.vs = tr vw 0 by rw [hf.zero]; exact Nat.zero_mod _) (hops op hop).1, (hops op hop).2⟩)
  exact ⟨t, r1⟩

/-- parameters of the correctness argument -/
def grpParArr (c : ArrEnv) (sp : Bool) (hk : HashKind) (kw vw : Nat) : Par GrpStore ArrOv where
  Rep := GrpRep sp
  RepO := IdealRep
  norm := fun w v => v % 2 ^ w
  normO := fun v => v % 2 ^ c.vs
  maxE := 255
  cl := 64
  W := 64
  kw := kw
  vw := vw
  lo := hk.lo kw 64
  hi := hk.width kw - 1
  ini := grpIni kw
  grow := hk.grow kw 255 64

/-- **C106**, true part, `group_chaining_table`. -/
theorem C106_group_array_partial {gc : GrpCfg} (h : GrpOK hk kw vw) (hf : ArrFits c (fun v => v % 2 ^ vw)) (ops : List MapOp)
    (hops : ∀ op ∈ ops, ArrCall c junk (fun v => v % 2 ^ vw) hk 64 kw op) :
    ∃ t, Tab.run (grpMapJunk gc hk c junk) (Tab.new (grpMapJunk gc hk c junk) kw vw) ops =
      .ok (t, FMap.empty.run (fun v => v % 2 ^ vw) ops) := by
  have hS := h.hash
  have h3 : 3 ≤ kw := by cases hk <;> exact hS.1
  obtain ⟨hi1, hi2⟩ := ini_bounds (I := 8) h3 (by omega)
  obtain ⟨h4, h5, h6, h7⟩ := HashKind.hashOK (maxE := 255) (cl := 64) hS hi1 hi2 (by omega) (by omega)
  have L : Laws (grpTable gc hk (arrIdeal c junk)) (grpParArr c gc.strict hk kw vw) :=
    laws_of (lawful_grp gc id).weaken (lawful_ideal c junk) h4 h.vw_pos h.vw_le (by simp [grpTable]) (by simp [grpTable])
      (by simp [grpTable]) (by simp [grpTable]) (fun x => Nat.mod_mod _ _) (fun x => Nat.mod_eq_of_lt (hf.wide x)) (show 2 ≤ kw by omega)
      (by simp [grpTable]) rfl h5 h6
  have A := junk_agree c junk (NotJunk c junk) (fun k hk => hk.1) (fun i hi hk => hk.2 i hi rfl)
  obtain ⟨t, l, r1, _⟩ := run_withOv (g := grpTable gc hk (arrIdeal c junk)) A L h7 ops (fun op hop => ⟨ValidOp.opOK L.hi_lt L.lo_pos
    (fun v hv => hv) (show 0 % 2 ^ c.vs = 0 % 2 ^ vw by rw [Nat.zero_mod, Nat.zero_mod]) (hops op hop).1, (hops op hop).2⟩)
  exact ⟨t, r1⟩

/-- memory that the operating system has just handed out, for keys of 16 and values of 32 bits -/
def zeroEx : ArrEnv := ⟨16, 32, fun b _ _ => b⟩

theorem zeroEx_fits : ArrFits zeroEx (fun v => v % 2 ^ 32) := ⟨rfl, fun _ => Nat.mod_lt _ (by decide)⟩

/-- 60 insertions of keys other than 0 -/
def zeroExOps : List MapOp := (List.range 60).map (fun i => .insert (17 * i + 3) (1000 + i)) ++
  [.assign 37 7, .find 37, .count 21, .reserve 64, .get 20, .shrink, .size]

theorem zeroExOps_ok : ∀ op ∈ zeroExOps, ArrCall zeroEx (fun _ => 0) (fun v => v % 2 ^ 32) (.xorshift 16) 16 10 op := by decide +kernel

example : ∃ t, Tab.run (sepMapJunk exCfg (.xorshift 16) zeroEx (fun _ => 0)) (Tab.new (sepMapJunk exCfg (.xorshift 16) zeroEx (fun _ => 0)) 10 20)
    zeroExOps = .ok (t, FMap.empty.run (fun v => v % 2 ^ 32) zeroExOps) := C106_separate_array_partial exOK zeroEx_fits _ zeroExOps_ok

/-- in the example, elements are in the overflow table -/
example : (match Tab.run (sepMapJunk exCfg (.xorshift 16) zeroEx (fun _ => 0)) (Tab.new (sepMapJunk exCfg (.xorshift 16) zeroEx (fun _ => 0)) 10 20)
    (zeroExOps.take 60) with
    | .ok (t, _) => decide (0 < t.ovf.elems)
    | .error _ => false) = true := by decide +kernel

example : ∃ t, Tab.run (grpMapJunk grpEx (.xorshift 64) zeroEx (fun _ => 0)) (Tab.new (grpMapJunk grpEx (.xorshift 64) zeroEx (fun _ => 0)) 11 13)
    [.insert 5 6, .insert 1000 7, .find 5, .size] =
    .ok (t, FMap.empty.run (fun v => v % 2 ^ 13) [.insert 5 6, .insert 1000 7, .find 5, .size]) :=
  C106_group_array_partial grpExOK ⟨rfl, fun _ => Nat.lt_trans (Nat.mod_lt _ (by decide)) (by decide)⟩ _ (by decide +kernel)

/-- **C106** is false: on memory that holds zeros, key 0 is inserted, and as soon as another element is in the overflow
table, key 0 is reported as absent, although nothing has been erased. -/
theorem C106_junk_key_false : ∃ ks : List Nat, (∀ k ∈ ks, k < 2 ^ 10) ∧ 0 ∈ ks ∧
    (∃ t as, Tab.run (sepMapJunk exCfg (.xorshift 16) zeroEx (fun _ => 0)) (Tab.new (sepMapJunk exCfg (.xorshift 16) zeroEx (fun _ => 0)) 10 20)
      (ks.map (fun k => .insert k 1) ++ [.count 0, .find 0]) = .ok (t, as ++ [.num 0, .absent])) := by
  refine ⟨[0, 3, 20, 37], by decide, by simp, ?_⟩
  have h : (match Tab.run (sepMapJunk exCfg (.xorshift 16) zeroEx (fun _ => 0)) (Tab.new (sepMapJunk exCfg (.xorshift 16) zeroEx (fun _ => 0)) 10 20)
      ([0, 3, 20, 37].map (fun k => .insert k 1) ++ [.count 0, .find 0]) with
    | .ok (_, as) => as == [.pair 0 1, .pair 3 1, .pair 20 1, .pair 37 1] ++ [.num 0, .absent]
    | .error _ => false) = true := by decide +kernel
  split at h
  · next t as he => exact ⟨t, _, by rw [he, beq_iff_eq.mp h]⟩
  · cases h

/-- **C106** is false: no key is junk, two elements are in the overflow table, the first of them is erased, and the second
is gone, whereas the erased one is still there. -/
theorem C106_erase_false : ∃ ks : List Nat, (∀ k ∈ ks, k < 2 ^ 10 ∧ NotJunk zeroEx (fun _ => 0) k) ∧
    ∃ x ∈ ks, ∃ y ∈ ks, x ≠ y ∧
    (∃ t as, Tab.run (sepMapJunk exCfg (.xorshift 16) zeroEx (fun _ => 0)) (Tab.new (sepMapJunk exCfg (.xorshift 16) zeroEx (fun _ => 0)) 10 20)
      (ks.map (fun k => .insert k 1) ++ [.erase x, .count x, .count y]) = .ok (t, as ++ [.num 1, .num 1, .num 0])) := by
  refine ⟨[3, 20, 37, 48, 59], by decide +kernel, 48, by simp, 59, by simp, by decide, ?_⟩
  have h : (match Tab.run (sepMapJunk exCfg (.xorshift 16) zeroEx (fun _ => 0)) (Tab.new (sepMapJunk exCfg (.xorshift 16) zeroEx (fun _ => 0)) 10 20)
      ([3, 20, 37, 48, 59].map (fun k => .insert k 1) ++ [.erase 48, .count 48, .count 59]) with
    | .ok (_, as) => as == [.pair 3 1, .pair 20 1, .pair 37 1, .pair 48 1, .pair 59 1] ++ [.num 1, .num 1, .num 0]
    | .error _ => false) = true := by decide +kernel
  split at h
  · next t as he => exact ⟨t, _, by rw [he, beq_iff_eq.mp h]⟩
  · cases h

end SC
