import Verif.Sep.StoreLemmas
import Verif.Table.Kinds
import Verif.Overflow.Dummy
import Verif.Bucket.VarwidthLemmas
/-!
# `separate_chaining_table` with the buckets of the library and without overflow table
-/
namespace SC

/-- The bucket classes usable for keys: `plain_bucket`, `class_key_bucket`, `avx2_key_bucket` over a type of `W` bits and
`varwidth_bucket`, which stores quotients of any width.  For `varwidth_bucket` the accesses beyond the end of a block
are taken to be harmless (`strict = false`, see C12 and C13). -/
inductive IsKeyBucket : (B : Type) → BucketOps B → (W : Nat) → Prop
  | plain {s : Nat} (h : s = 8 ∨ s = 16 ∨ s = 32 ∨ s = 64) : IsKeyBucket PlainB (plainOps s) s
  | class {s : Nat} (h : s = 8 ∨ s = 16 ∨ s = 32 ∨ s = 64) : IsKeyBucket PlainB (classOps s) s
  | avx {s : Nat} (h : s = 8 ∨ s = 16 ∨ s = 32 ∨ s = 64) : IsKeyBucket PlainB (avxOps s) s
  | varwidth {c : VarCfg} (h : c.good) (hflat : c.strict = false) : IsKeyBucket VarB (varOps c) 64

/-- The bucket classes usable for values; `tr w v` is what remains of `v` with value width `w`.  `null_value_bucket`
turns a map into a set. -/
inductive IsValueBucket : (B : Type) → BucketOps B → (tr : Nat → Nat → Nat) → Prop
  | plain {s : Nat} (h : s = 8 ∨ s = 16 ∨ s = 32 ∨ s = 64) : IsValueBucket PlainB (plainOps s) (fun _ v => v % 2 ^ s)
  | class {s : Nat} (h : s = 8 ∨ s = 16 ∨ s = 32 ∨ s = 64) : IsValueBucket PlainB (classOps s) (fun _ v => v % 2 ^ s)
  | varwidth {c : VarCfg} (h : c.good) (hflat : c.strict = false) : IsValueBucket VarB (varOps c) (fun w v => v % 2 ^ w)
  | null : IsValueBucket Unit nullOps (fun _ _ => 1)

theorem dvd8 {s : Nat} (h : s = 8 ∨ s = 16 ∨ s = 32 ∨ s = 64) : 8 ∣ s := by
  rcases h with h | h | h | h <;> subst h <;> decide

theorem mod_of_width {w W x : Nat} (hw : w ≤ W) (hx : x < 2 ^ w) : x % 2 ^ W = x :=
  Nat.mod_eq_of_lt (Nat.lt_of_lt_of_le hx (Nat.pow_le_pow_right (by omega) hw))

theorem IsKeyBucket.lawful {B : Type} {ops : BucketOps B} {W : Nat} (h : IsKeyBucket B ops W) :
    ∃ norm Rep, LawfulBucket ops norm Rep ∧ LawfulFind ops norm Rep ∧ ∀ w x, w ≤ W → x < 2 ^ w → norm w x = x := by
  cases h with
  | plain hs => exact ⟨_, _, lawful_plain (dvd8 hs), lawful_plain_find _, fun w x h1 h2 => mod_of_width h1 h2⟩
  | «class» hs => exact ⟨_, _, lawful_class (dvd8 hs), lawful_class_find _, fun w x h1 h2 => mod_of_width h1 h2⟩
  | avx hs => exact ⟨_, _, lawful_avx hs, lawful_avx_find hs, fun w x h1 h2 => mod_of_width h1 h2⟩
  | varwidth hc hf => exact ⟨_, _, lawful_var hc hf, lawful_var_find hc, fun w x _ h2 => Nat.mod_eq_of_lt h2⟩

theorem IsValueBucket.lawful {B : Type} {ops : BucketOps B} {tr : Nat → Nat → Nat} (h : IsValueBucket B ops tr) :
    (∃ Rep, LawfulBucket ops tr Rep) ∧ ∀ w x, tr w (tr w x) = tr w x := by
  cases h with
  | plain hs => exact ⟨⟨_, lawful_plain (dvd8 hs)⟩, fun w x => Nat.mod_mod _ _⟩
  | «class» hs => exact ⟨⟨_, lawful_class (dvd8 hs)⟩, fun w x => Nat.mod_mod _ _⟩
  | varwidth hc hf => exact ⟨⟨_, lawful_var hc hf⟩, fun w x => Nat.mod_mod _ _⟩
  | null => exact ⟨⟨_, lawful_null⟩, fun _ _ => rfl⟩

variable {KB VB : Type}

/-- `separate_chaining_table<key_bucket, value_manager, hash_mapping, resize_strategy, overflow>` -/
def sepTable {O : Type} (p : SepCfg KB VB) (hk : HashKind) (ov : OverflowOps O) : Cfg (SepStore KB VB) O where
  ops := p.ops
  ov := ov
  hash := hk.mapping
  initBuckets := 16
  initBpg := 1
  rehashBpg := 1
  noStore := { n := 0, bkt := fun _ => { keys := p.kops.empty, vals := p.vops.empty, size := 0, cap := 0 } }

/-- the number of buckets of the first allocation is `2^sepIni` -/
def sepIni (kw : Nat) : Nat := ceilLog (min (kw - 1) 16)

/-- parameters of the correctness argument -/
def sepPar {O : Type} (p : SepCfg KB VB) (hk : HashKind) (KRep : KB → Nat → Nat → List Nat → Prop)
    (VRep : VB → Nat → Nat → List Nat → Prop) (RepO : O → Nat → List (Nat × Nat × Nat) → (Nat → Bool) → Prop)
    (norm : Nat → Nat → Nat) (normO : Nat → Nat) (tight : Bool) (W kw vw : Nat) : Par (SepStore KB VB) O where
  Rep := SepRep p KRep VRep tight
  RepO := RepO
  norm := norm
  normO := normO
  maxE := p.maxSize
  cl := 1
  W := W
  kw := kw
  vw := vw
  lo := hk.lo kw W
  hi := hk.width kw - 1
  ini := sepIni kw
  grow := hk.grow kw p.maxSize 1

theorem sep_laws {O : Type} {p : SepCfg KB VB} {hk : HashKind} {ov : OverflowOps O} {knorm norm : Nat → Nat → Nat}
    {KRep : KB → Nat → Nat → List Nat → Prop} {VRep : VB → Nat → Nat → List Nat → Prop}
    {RepO : O → Nat → List (Nat × Nat × Nat) → (Nat → Bool) → Prop} {normO : Nat → Nat} {W kw vw : Nat}
    (hK : LawfulBucket p.kops knorm KRep) (hKf : LawfulFind p.kops knorm KRep) (hV : LawfulBucket p.vops norm VRep)
    (hn : ∀ w x, w ≤ W → x < 2 ^ w → knorm w x = x) (hidem : ∀ x, norm vw (norm vw x) = norm vw x)
    (ho : LawfulOverflow ov normO RepO) (hno : ∀ x, normO (norm vw x) = norm vw x)
    (hM : 2 ≤ p.maxSize) (hS : hk.Supports kw W (sepIni kw)) (hv1 : 1 ≤ vw) (hv2 : vw ≤ 64) (tight : Bool) :
    Laws (sepTable p hk ov) (sepPar p hk KRep VRep RepO norm normO tight W kw vw) ∧ hk.grow kw p.maxSize 1 < 65 := by
  have h3 : 3 ≤ kw := by cases hk <;> exact hS.1
  obtain ⟨hi1, hi2⟩ := ini_bounds (I := 16) h3 (by omega)
  obtain ⟨h4, h5, h6, h7⟩ := HashKind.hashOK (maxE := p.maxSize) (cl := 1) hS hi1 hi2 (by omega) (by omega)
  exact ⟨laws_of (lawful_sep hK hKf hV hn tight).weaken ho h4 hv1 hv2 (by simp [sepTable]) (by simp [sepTable]) (by simp [sepTable])
    (by simp [sepTable]) hidem hno (show 2 ≤ kw by omega) (by simp [sepTable]) rfl h5 h6, h7⟩

/-! ## Histories -/

/-- An instantiation of `separate_chaining_map`/`separate_chaining_set` that is covered: bucket types of the library,
`max_bucket_size()` at least 2, supported key width, value width 1..64. -/
structure SepOK (p : SepCfg KB VB) (hk : HashKind) (tr : Nat → Nat → Nat) (W kw vw : Nat) : Prop where
  keys : IsKeyBucket KB p.kops W
  vals : IsValueBucket VB p.vops tr
  max : 2 ≤ p.maxBucket
  hash : hk.Supports kw W (sepIni kw)
  vw_pos : 1 ≤ vw
  vw_le : vw ≤ 64

/-- valid arguments for such a table; values are not restricted (they are truncated) -/
abbrev SepValid (hk : HashKind) (W kw : Nat) (op : MapOp) : Prop :=
  ValidOp kw (hk.lo kw W) (hk.width kw - 1) (fun _ => True) op

/-- the table without overflow table -/
abbrev sepMap (p : SepCfg KB VB) (hk : HashKind) : Cfg (SepStore KB VB) Unit := sepTable p hk dummyOverflow

/-- `P` are parameters for which the correctness argument works -/
structure SepParOK (p : SepCfg KB VB) (hk : HashKind) (tr : Nat → Nat → Nat) (W kw vw : Nat) (tight : Bool)
    (P : Par (SepStore KB VB) Unit) : Prop where
  laws : Laws (sepMap p hk) P
  grow65 : P.grow < 65
  par : ∃ KRep VRep, P = sepPar p hk KRep VRep DummyRep tr (tr vw) tight W kw vw
  buckets : ∃ knorm KRep VRep, P.Rep = SepRep p KRep VRep tight ∧ LawfulBucket p.kops knorm KRep ∧
    LawfulBucket p.vops tr VRep

theorem SepOK.par {p : SepCfg KB VB} {hk : HashKind} {tr : Nat → Nat → Nat} {W kw vw : Nat} (h : SepOK p hk tr W kw vw)
    (tight : Bool) : ∃ P, SepParOK p hk tr W kw vw tight P := by
  obtain ⟨knorm, KRep, h1, h2, h3⟩ := h.keys.lawful
  obtain ⟨⟨VRep, h4⟩, h5⟩ := h.vals.lawful
  have hM : 2 ≤ p.maxSize := by have := h.max; unfold SepCfg.maxSize; omega
  obtain ⟨L, hg⟩ := sep_laws (ov := dummyOverflow) h1 h2 h4 h3 (h5 vw) (lawful_dummy (tr vw)) (h5 vw) hM h.hash h.vw_pos
    h.vw_le tight
  exact ⟨_, L, hg, ⟨KRep, VRep, rfl⟩, knorm, KRep, VRep, rfl, h1, h4⟩

theorem SepParOK.normA {p : SepCfg KB VB} {hk : HashKind} {tr : Nat → Nat → Nat} {W kw vw : Nat} {tight : Bool}
    {P : Par (SepStore KB VB) Unit} (h : SepParOK p hk tr W kw vw tight P) (x : Nat) : P.normO x = P.norm P.vw x := by
  obtain ⟨KRep, VRep, rfl⟩ := h.par
  rfl

theorem SepParOK.opOK {p : SepCfg KB VB} {hk : HashKind} {tr : Nat → Nat → Nat} {W kw vw : Nat}
    {tight : Bool} {P : Par (SepStore KB VB) Unit} (h : SepParOK p hk tr W kw vw tight P) {op : MapOp} (hop : SepValid hk W kw op) :
    OpOK P op := by
  have L := h.laws
  obtain ⟨KRep, VRep, rfl⟩ := h.par
  exact ValidOp.opOK L.hi_lt L.lo_pos (fun _ _ => rfl) rfl hop

/-- The state after a history: the table that results from the calls `ops` on a new table. -/
def SepAfter (p : SepCfg KB VB) (hk : HashKind) (kw vw : Nat) (ops : List MapOp) (t : Tab (SepStore KB VB) Unit) : Prop :=
  ∃ as, Tab.run (sepMap p hk) (Tab.new (sepMap p hk) kw vw) ops = .ok (t, as)

theorem sep_after {p : SepCfg KB VB} {hk : HashKind} {tr : Nat → Nat → Nat} {W kw vw : Nat} (h : SepOK p hk tr W kw vw)
    {ops : List MapOp} (hops : ∀ op ∈ ops, SepValid hk W kw op) {t : Tab (SepStore KB VB) Unit}
    (ht : SepAfter p hk kw vw ops t) :
    ∃ P l, SepParOK p hk tr W kw vw true P ∧ Inv (sepMap p hk) P t l ∧ Abs l (FMap.empty.after (tr vw) ops) := by
  obtain ⟨P, hP⟩ := h.par true
  obtain ⟨t', l, h1, h2, h3⟩ := Tab.run_new hP.laws hP.grow65 ops (fun op hop => hP.opOK (hops op hop))
  have e1 : P.kw = kw := by obtain ⟨_, _, rfl⟩ := hP.par; rfl
  have e2 : P.vw = vw := by obtain ⟨_, _, rfl⟩ := hP.par; rfl
  have e3 : P.norm P.vw = tr vw := by obtain ⟨_, _, rfl⟩ := hP.par; rfl
  rw [e3, e1, e2] at h1
  rw [e3] at h3
  obtain ⟨as, ht⟩ := ht
  rw [ht] at h1
  have := congrArg Prod.fst (Except.ok.inj h1)
  have : t = t' := this
  subst this
  exact ⟨P, l, hP, h2, h3⟩

end SC
