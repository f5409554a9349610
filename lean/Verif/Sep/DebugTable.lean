import Verif.Bucket.DebugSerial
import Verif.Sep.Debug
import Verif.Table.Facts
import Verif.Overflow.Dummy
/-!
# `separate_chaining_table` with the buckets of the library in a debug build
-/
namespace SC

/-! ## Values that fit -/

/-- what is stored of a value, if only values below `2^w` are written -/
def fitNorm (tr : Nat → Nat → Nat) (w v : Nat) : Nat := tr w (if v < 2 ^ w then v else 0)

/-- a function that agrees with `fitNorm tr vw` exactly for the values below `2^vw` -/
def fitNormO (tr : Nat → Nat → Nat) (vw v : Nat) : Nat := if v < 2 ^ vw then tr vw v else tr vw 0 + 1

theorem fit_iff {tr : Nat → Nat → Nat} {vw v : Nat} : fitNormO tr vw v = fitNorm tr vw v ↔ v < 2 ^ vw := by
  unfold fitNormO fitNorm
  split <;> simp_all

theorem fit_eq {tr : Nat → Nat → Nat} {vw v : Nat} (h : v < 2 ^ vw) : fitNorm tr vw v = tr vw v := by
  unfold fitNorm; rw [if_pos h]

/-- a store that is only given values that fit -/
theorem LawfulStore.fit {S : Type} {ops : StoreOps S} {tr : Nat → Nat → Nat} {Rep : S → Dim → Cont → Prop}
    {maxE cl W vw : Nat} {ok : Nat → Nat → Prop} {D D' : Dim → Prop} (h : LawfulStore ops tr Rep maxE cl W ok D)
    (hok : ∀ v, v < 2 ^ vw → ok vw v) (hD : ∀ d, D' d → D d ∧ d.vw = vw) :
    LawfulStore ops (fitNorm tr) (fun s d c => Rep s d c ∧ d.vw = vw) maxE cl W
      (fun w v => fitNormO tr vw v = fitNorm tr w v) D' where
  alloc d := (h.alloc d).imp fun _ h' => ⟨h'.1, fun g hd => ⟨h'.2 g (hD d hd).1, (hD d hd).2⟩⟩
  size s d c b g hr hb := h.size s d c b g hr.1 hb
  locate s d c b q g hr hb hq := h.locate s d c b q g hr.1 hb hq
  full s d c b g hr hb := h.full s d c b g hr.1 hb
  push s d c b q v g hr hb hq hf hv := by
    rw [hr.2] at hv
    have hlt := fit_iff.mp hv
    obtain ⟨s', e1, e2⟩ := h.push s d c b q v g hr.1 hb hq hf (by rw [hr.2]; exact hok v hlt)
    exact ⟨s', e1, by rw [hr.2, fit_eq hlt, ← hr.2]; exact e2, hr.2⟩
  quotientAt s d c b i g hr hb hi := h.quotientAt s d c b i g hr.1 hb hi
  valueAt s d c b i g hr hb hi := h.valueAt s d c b i g hr.1 hb hi
  writeValue s d c b i v g hr hb hi hv := by
    rw [hr.2] at hv
    have hlt := fit_iff.mp hv
    obtain ⟨s', e1, e2⟩ := h.writeValue s d c b i v g hr.1 hb hi (by rw [hr.2]; exact hok v hlt)
    exact ⟨s', e1, by rw [hr.2, fit_eq hlt, ← hr.2]; exact e2, hr.2⟩
  eraseAt s d c b i g hr hb hi := (h.eraseAt s d c b i g hr.1 hb hi).imp fun _ h' => ⟨h'.1, h'.2, hr.2⟩
  shrink s d c b g hr hb := (h.shrink s d c b g hr.1 hb).imp fun _ h' => ⟨h'.1, h'.2, hr.2⟩
  len s d c b g hr hb := h.len s d c b g hr.1 hb

/-- functions that agree on the values that are written give the same answers -/
theorem FMap.run_congr {f g : Nat → Nat} {kw lo hi : Nat} {vals : Nat → Prop} (h0 : f 0 = g 0) (h : ∀ v, vals v → f v = g v) :
    ∀ (ops : List MapOp) (m : FMap), (∀ op ∈ ops, ValidOp kw lo hi vals op) →
      m.run f ops = m.run g ops ∧ m.after f ops = m.after g ops := by
  intro ops
  induction ops with
  | nil => intro m _; exact ⟨rfl, rfl⟩
  | cons op ops ih =>
    intro m hops
    have hs : m.step f op = m.step g op := by
      have := hops op (by simp)
      cases op with
      | insert k v => simp only [FMap.step, h v this.2]
      | get k => simp only [FMap.step, h0]
      | assign k v => simp only [FMap.step, h v this.2]
      | _ => rfl
    have := ih (m.step g op).1 (fun o ho => hops o (by simp [ho]))
    simp only [FMap.run, FMap.after, hs, this.1, this.2, and_self]

/-! ## The table -/

/-- The bucket classes for keys, see `IsKeyBucket`. -/
inductive IsDbgKeyBucket : (B : Type) → DbgCfg B → (W : Nat) → Prop
  | plain {s j : Nat} (h : s = 8 ∨ s = 16 ∨ s = 32 ∨ s = 64) : IsDbgKeyBucket PlainB (dbgPlain s j) s
  | class {s j : Nat} (h : s = 8 ∨ s = 16 ∨ s = 32 ∨ s = 64) : IsDbgKeyBucket PlainB (dbgClass s j) s
  | avx {s j : Nat} (h : s = 8 ∨ s = 16 ∨ s = 32 ∨ s = 64) : IsDbgKeyBucket PlainB (dbgAvx s j) s
  | varwidth {v : VarCfg} {j : Nat} (h : v.good) (hflat : v.strict = false) : IsDbgKeyBucket VarB (dbgVar v j) 64

/-- The bucket classes for values, see `IsValueBucket`; `null` is the test `m_data == nullptr` of `initialize`, and
`vbits` the number of bits of `value_type`.  For `null_value_bucket` (`value_type` is `bool`,
separate_chaining_table.hpp:24) there is no test. -/
inductive IsDbgValueBucket : (B : Type) → BucketOps B → (null : B → Bool) → (tr : Nat → Nat → Nat) → (vbits : Nat) → Prop
  | plain {s j : Nat} (h : s = 8 ∨ s = 16 ∨ s = 32 ∨ s = 64) :
    IsDbgValueBucket (DbgB PlainB) (dbgOps (dbgPlain s j)) (fun b => b.data.isNone) (fun _ v => v % 2 ^ s) s
  | class {s j : Nat} (h : s = 8 ∨ s = 16 ∨ s = 32 ∨ s = 64) :
    IsDbgValueBucket (DbgB PlainB) (dbgOps (dbgClass s j)) (fun b => b.data.isNone) (fun _ v => v % 2 ^ s) s
  | varwidth {v : VarCfg} {j : Nat} (h : v.good) (hflat : v.strict = false) :
    IsDbgValueBucket (DbgB VarB) (dbgOps (dbgVar v j)) (fun b => b.data.isNone) (fun w v => v % 2 ^ w) 64
  | null : IsDbgValueBucket Unit nullOps (fun _ => true) (fun _ _ => 1) 8

/-- `kops` are the functions of a class of buckets for quotients of at most `W` bits, `null` its test for a null pointer,
`len` its member `m_length`. -/
structure DbgKeys {B : Type} (ops : BucketOps B) (null : B → Bool) (len : B → Nat) (W : Nat) (norm : Nat → Nat → Nat)
    (Rep : B → Nat → Nat → List Nat → Prop) (ok : Nat → Nat → Prop) : Prop where
  core : LawfulCore ops norm Rep false ok
  find : LawfulFind ops norm Rep
  norm : ∀ w x, w ≤ W → x < 2 ^ w → norm w x = x
  ok : ∀ w x, w ≤ W → x < 2 ^ w → ok w x
  null_empty : null ops.empty = true
  null_clear : ∀ b, null (ops.clear b) = true
  len : ∀ b w cap xs, Rep b w cap xs → xs.length ≤ len b
  ser : LawfulSer ops Rep

theorem dbgKeys_of {B : Type} {c : DbgCfg B} {W : Nat} {norm : Nat → Nat → Nat} {Rep : B → Nat → Nat → List Nat → Prop}
    (L : LawfulBucket c.ops norm Rep false) (F : LawfulFind c.ops norm Rep) (hc : DbgOK c norm Rep)
    (hn : ∀ w x, w ≤ W → x < 2 ^ w → norm w x = x) :
    DbgKeys (dbgOps c) (fun b => c.isNull b.data) DbgB.len W norm (DbgRep c Rep) (fun w x => c.block.isSome = true → x < 2 ^ w) where
  core := lawful_dbg L.toLawfulCore hc
  find := lawful_dbg_find L.toLawfulCore F
  norm := hn
  ok := fun _ _ _ h _ => h
  null_empty := hc.null_empty
  null_clear := fun b => hc.null_clear b.data
  len := fun _ _ _ _ h => Nat.le_trans (L.cap_ge _ _ _ _ h.1) h.2.1
  ser := lawful_dbg_ser L.toLawfulCore L.toSer hc

theorem IsDbgKeyBucket.lawful {B : Type} {c : DbgCfg B} {W : Nat} (h : IsDbgKeyBucket B c W) :
    ∃ norm Rep ok, DbgKeys (dbgOps c) (fun b => c.isNull b.data) DbgB.len W norm Rep ok := by
  cases h with
  | plain hs => exact ⟨_, _, _, dbgKeys_of (lawful_plain (dvd8 hs)) (lawful_plain_find _) (dbgPlain_ok _ _)
      (fun w x h1 h2 => mod_of_width h1 h2)⟩
  | «class» hs => exact ⟨_, _, _, dbgKeys_of (lawful_class (dvd8 hs)) (lawful_class_find _) (dbgClass_ok _ _)
      (fun w x h1 h2 => mod_of_width h1 h2)⟩
  | avx hs => exact ⟨_, _, _, dbgKeys_of (lawful_avx hs) (lawful_avx_find hs) (dbgAvx_ok _ _)
      (fun w x h1 h2 => mod_of_width h1 h2)⟩
  | varwidth hc hf => exact ⟨_, _, _, dbgKeys_of (lawful_var hc hf) (lawful_var_find hc) (dbgVar_ok hc _)
      (fun w x _ h2 => Nat.mod_eq_of_lt h2)⟩

/-- the same for values -/
structure DbgVals {B : Type} (ops : BucketOps B) (null : B → Bool) (tr : Nat → Nat → Nat) (vbits : Nat)
    (Rep : B → Nat → Nat → List Nat → Prop) (ok : Nat → Nat → Prop) : Prop where
  core : LawfulCore ops tr Rep false ok
  idem : ∀ w x, tr w (tr w x) = tr w x
  lt : ∀ w x, 1 ≤ w → w ≤ vbits → x < 2 ^ w → tr w x < 2 ^ w
  ok : ∀ w x, x < 2 ^ w → ok w x
  null_empty : null ops.empty = true
  null_clear : ∀ b, null (ops.clear b) = true
  ser : LawfulSer ops Rep

theorem dbgVals_of {B : Type} {c : DbgCfg B} {vbits : Nat} {norm : Nat → Nat → Nat} {Rep : B → Nat → Nat → List Nat → Prop}
    (L : LawfulBucket c.ops norm Rep false) (hc : DbgOK c norm Rep) (hi : ∀ w x, norm w (norm w x) = norm w x)
    (hn : ∀ w x, w ≤ vbits → x < 2 ^ w → norm w x = x) :
    DbgVals (dbgOps c) (fun b => c.isNull b.data) norm vbits (DbgRep c Rep) (fun w x => c.block.isSome = true → x < 2 ^ w) where
  core := lawful_dbg L.toLawfulCore hc
  idem := hi
  lt := fun w x _ h1 h2 => by rw [hn w x h1 h2]; exact h2
  ok := fun _ _ h _ => h
  null_empty := hc.null_empty
  null_clear := fun b => hc.null_clear b.data
  ser := lawful_dbg_ser L.toLawfulCore L.toSer hc

theorem IsDbgValueBucket.lawful {B : Type} {ops : BucketOps B} {null : B → Bool} {tr : Nat → Nat → Nat} {vbits : Nat}
    (h : IsDbgValueBucket B ops null tr vbits) : ∃ Rep ok, DbgVals ops null tr vbits Rep ok := by
  cases h with
  | plain hs => exact ⟨_, _, dbgVals_of (c := dbgPlain _ _) (lawful_plain (dvd8 hs)) (dbgPlain_ok _ _)
      (fun w x => Nat.mod_mod _ _) (fun w x h1 h2 => mod_of_width h1 h2)⟩
  | «class» hs => exact ⟨_, _, dbgVals_of (c := dbgClass _ _) (lawful_class (dvd8 hs)) (dbgClass_ok _ _)
      (fun w x => Nat.mod_mod _ _) (fun w x h1 h2 => mod_of_width h1 h2)⟩
  | varwidth hc hf => exact ⟨_, _, dbgVals_of (c := dbgVar _ _) (lawful_var hc hf) (dbgVar_ok hc _)
      (fun w x => Nat.mod_mod _ _) (fun w x _ h2 => Nat.mod_eq_of_lt h2)⟩
  | null => exact ⟨_, fun _ _ => True, lawful_null.toLawfulCore, fun _ _ => rfl,
      fun w _ h1 _ _ => Nat.one_lt_two_pow (by omega), fun _ _ _ => trivial, rfl, fun _ => rfl, lawful_null.toSer⟩

variable {KB VB : Type}

/-- `separate_chaining_table` in a debug build, without overflow table.  `stale` is `m_maxbucketsizes != nullptr` (size.hpp:68;
only `arbitrary_resize` has this array, whose length is the number of buckets). -/
def sepDbgTable (c : SepDbgCfg KB VB) : Cfg (SepDbg KB VB) Unit where
  ops := c.ops
  ov := dummyOverflow
  hash := c.hash
  initBuckets := 16
  initBpg := 1
  rehashBpg := 1
  noStore := ⟨{ n := 0, bkt := fun _ => { keys := c.p.kops.empty, vals := c.p.vops.empty, size := 0, cap := 0 } }, fun _ => none⟩
  debug := true
  stale := fun s => decide (c.p.strat = .arbitrary) && decide (s.base.n ≠ 0)

/-- Template arguments for the buckets of the library: bucket class `k` for the keys, `vops` with the test `vnull` for the
values, hash function `hk`, `key_type` of `kbits` bits. -/
def dbgCfg (k : DbgCfg KB) (vops : BucketOps VB) (vnull : VB → Bool) (strat : Strategy) (maxBucket : Nat) (hk : HashKind)
    (kbits : Nat) : SepDbgCfg (DbgB KB) VB where
  p := { kops := dbgOps k, vops := vops, strat := strat, maxBucket := maxBucket }
  knull := fun b => k.isNull b.data
  vnull := vnull
  klen := DbgB.len
  hash := hk.dbgMapping
  remOK := hk.remOK
  kbits := kbits

/-- The assertions of the constructor, sep:317-327, with those of the hash function -/
def sepDbgNew (hk : HashKind) (kbits vbits kw vw : Nat) : Res Unit := do
  hk.dbgNew kw
  ddcheck true (1 ≤ vw)
  ddcheck true (vw ≤ vbits)
  ddcheck true (1 ≤ kw)
  ddcheck true (kw ≤ kbits)

/-- parameters of the correctness argument -/
def sepDbgPar (c : SepDbgCfg KB VB) (hk : HashKind) (KRep : KB → Nat → Nat → List Nat → Prop)
    (VRep : VB → Nat → Nat → List Nat → Prop) (tr : Nat → Nat → Nat) (tight : Bool) (W kw vw : Nat) : Par (SepDbg KB VB) Unit where
  Rep := fun s d cont => SepDbgRep c KRep VRep tight kw (hk.lo kw W) (hk.width kw - 1) s d cont ∧ d.vw = vw
  RepO := DummyRep
  norm := fitNorm tr
  normO := fitNormO tr vw
  maxE := c.p.maxSize
  cl := 1
  W := W
  kw := kw
  vw := vw
  lo := hk.lo kw W
  hi := hk.width kw - 1
  ini := sepIni kw
  grow := hk.grow kw c.p.maxSize 1
  one := decide (c.p.strat ≠ .arbitrary)

/-- A covered instantiation in a debug build: bucket types of the library, `max_bucket_size()` at least 2, supported key
width, value width 1..64, widths not larger than the types. -/
structure SepDbgTabOK (k : DbgCfg KB) (vops : BucketOps VB) (vnull : VB → Bool) (maxBucket : Nat) (hk : HashKind) (kbits vbits : Nat)
    (tr : Nat → Nat → Nat) (W kw vw : Nat) : Prop where
  keys : IsDbgKeyBucket KB k W
  vals : IsDbgValueBucket VB vops vnull tr vbits
  max : 2 ≤ maxBucket
  hash : hk.Supports kw W (sepIni kw)
  vw_pos : 1 ≤ vw
  vw_le : vw ≤ vbits
  ktype : kbits = 8 ∨ kbits = 16 ∨ kbits = 32 ∨ kbits = 64
  kw_le : kw ≤ kbits

theorem IsDbgValueBucket.vbits {B : Type} {ops : BucketOps B} {null : B → Bool} {tr : Nat → Nat → Nat} {vbits : Nat}
    (h : IsDbgValueBucket B ops null tr vbits) : vbits ≤ 64 := by
  cases h <;> omega

variable {k : DbgCfg KB} {vops : BucketOps VB} {vnull : VB → Bool} {strat : Strategy} {maxBucket : Nat} {hk : HashKind}
  {kbits vbits : Nat} {tr : Nat → Nat → Nat} {W kw vw : Nat}

/-- what is known about the buckets of a covered instantiation -/
structure SepDbgLaws (c : SepDbgCfg KB VB) (hk : HashKind) (vbits : Nat) (tr : Nat → Nat → Nat) (tight : Bool) (W kw vw : Nat)
    (KRep : KB → Nat → Nat → List Nat → Prop) (VRep : VB → Nat → Nat → List Nat → Prop) : Prop where
  laws : Laws (sepDbgTable c) (sepDbgPar c hk KRep VRep tr tight W kw vw)
  grow : hk.grow kw c.p.maxSize 1 < 65
  new : sepDbgNew hk c.kbits vbits kw vw = .ok ()
  ok : SepDbgOK c KRep kw (hk.lo kw W) (hk.width kw - 1)
  keys : ∃ knorm kok, LawfulCore c.p.kops knorm KRep false kok
  kser : LawfulSer c.p.kops KRep
  vser : LawfulSer c.p.vops VRep

theorem SepDbgTabOK.serial (h : SepDbgTabOK k vops vnull maxBucket hk kbits vbits tr W kw vw) (strat : Strategy) (tight : Bool) :
    ∃ KRep VRep, SepDbgLaws (dbgCfg k vops vnull strat maxBucket hk kbits) hk vbits tr tight W kw vw KRep VRep := by
  obtain ⟨knorm, KRep, kok, hK⟩ := h.keys.lawful
  obtain ⟨VRep, vok, hV⟩ := h.vals.lawful
  have hvb := h.vals.vbits
  generalize hc : dbgCfg k vops vnull strat maxBucket hk kbits = c
  have hM : 2 ≤ c.p.maxSize := by subst hc; have := h.max; simp only [SepCfg.maxSize, dbgCfg]; omega
  have h3 : 3 ≤ kw := by have := h.hash; cases hk <;> exact this.1
  obtain ⟨hi1, hi2⟩ := ini_bounds (I := 16) h3 (by omega)
  obtain ⟨_, h5, h6, h7⟩ := HashKind.hashOK (maxE := c.p.maxSize) (cl := 1) h.hash hi1 hi2 (by omega) (by omega)
  obtain ⟨h4, h8, h9⟩ := HashKind.dbgHashOK (maxE := c.p.maxSize) (cl := 1) h.hash hi1 hi2 (by omega) (by omega)
  have hO : SepDbgOK c KRep kw (hk.lo kw W) (hk.width kw - 1) := by
    subst hc
    exact ⟨hK.null_empty, hK.null_clear, hV.null_empty, hV.null_clear, hK.len, dvd8 h.ktype, h.kw_le, h8⟩
  have hkser : LawfulSer c.p.kops KRep := by subst hc; exact hK.ser
  have hvser : LawfulSer c.p.vops VRep := by subst hc; exact hV.ser
  have hkb : c.kbits = kbits := by subst hc; rfl
  have hcore : LawfulCore c.p.kops knorm KRep false kok := by subst hc; exact hK.core
  have hfind : LawfulFind c.p.kops knorm KRep := by subst hc; exact hK.find
  have hvcore : LawfulCore c.p.vops tr VRep false vok := by subst hc; exact hV.core
  have L := lawful_sepDbg hcore hfind hvcore hK.norm hK.ok tight hO
  have hlt : ∀ x, fitNorm tr vw x < 2 ^ vw := by
    intro x
    unfold fitNorm
    apply hV.lt vw _ h.vw_pos h.vw_le
    split
    · assumption
    · exact Nat.two_pow_pos _
  have hidem : ∀ x, fitNorm tr vw (fitNorm tr vw x) = fitNorm tr vw x := by
    intro x
    rw [fit_eq (hlt x)]
    exact hV.idem vw _
  have hash : (sepDbgTable c).hash = hk.dbgMapping := by subst hc; rfl
  refine ⟨KRep, VRep, ⟨laws_of ?_ (lawful_dummy _) ?_ h.vw_pos (show vw ≤ 64 from Nat.le_trans h.vw_le hvb)
    (by simp [sepDbgTable]) (by simp [sepDbgTable]) (by simp [sepDbgTable]) (by simp [sepDbgTable]) hidem ?_
    (show 2 ≤ kw by omega) (by simp [sepDbgTable]) rfl h5 h6 ?_ ?_, h7, ?_, hO, ⟨_, _, hcore⟩, hkser, hvser⟩⟩
  · refine L.fit (fun v hv => ⟨hV.ok _ _ hv, hv⟩) ?_
    rintro d ⟨d1, d2, d3, d4, d5⟩
    exact ⟨⟨d1, d2, d4, d5⟩, d3⟩
  · rw [hash]; exact h4
  · intro x; exact (fit_iff.mpr (hlt x)).trans (hidem x)
  · simp [sepDbgTable]
  · intro h1 s
    have : c.p.strat ≠ .arbitrary := of_decide_eq_true h1
    simp [sepDbgTable, this]
  · rw [hkb]
    simp only [sepDbgNew, h9, ok_bind, ddcheck_ok h.vw_pos, ddcheck_ok h.vw_le, ddcheck_ok (show 1 ≤ kw by omega),
      ddcheck_ok h.kw_le]

theorem SepDbgTabOK.par (h : SepDbgTabOK k vops vnull maxBucket hk kbits vbits tr W kw vw) (strat : Strategy) (tight : Bool) :
    ∃ KRep VRep, Laws (sepDbgTable (dbgCfg k vops vnull strat maxBucket hk kbits))
      (sepDbgPar (dbgCfg k vops vnull strat maxBucket hk kbits) hk KRep VRep tr tight W kw vw) ∧
      hk.grow kw (dbgCfg k vops vnull strat maxBucket hk kbits).p.maxSize 1 < 65 ∧
      sepDbgNew hk kbits vbits kw vw = .ok () := by
  obtain ⟨KRep, VRep, h⟩ := h.serial strat tight
  exact ⟨KRep, VRep, h.laws, h.grow, h.new⟩

end SC
