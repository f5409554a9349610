import Verif.Sep.DebugTable
import Verif.Props.Table
/-!
# Properties of debug builds: C77, C78

Template arguments: `k` is the class of the key buckets, `vops`/`vnull` of the value buckets, `strat` the resize
strategy, `maxBucket` is `SEPARATE_MAX_BUCKET_SIZE`, `hk` the hash mapping; `kbits` and `vbits` are the numbers of bits
of `key_type` and `value_type`.
-/
namespace SC

variable {KB VB : Type} {k : DbgCfg KB} {vops : BucketOps VB} {vnull : VB → Bool} {strat : Strategy} {maxBucket : Nat}
  {hk : HashKind} {kbits vbits : Nat} {tr : Nat → Nat → Nat} {W kw vw : Nat}

/-- Valid calls in a debug build: as in a release build, and values have at most `value_width()` bits; with
`arbitrary_resize` there is no `reserve(1)`. -/
def DbgValid (strat : Strategy) (hk : HashKind) (W kw vw : Nat) (op : MapOp) : Prop :=
  ValidOp kw (hk.lo kw W) (hk.width kw - 1) (fun v => v < 2 ^ vw) op ∧ (strat = .arbitrary → op ≠ .reserve 1)

instance (strat : Strategy) (hk : HashKind) (W kw vw : Nat) (op : MapOp) : Decidable (DbgValid strat hk W kw vw op) :=
  inferInstanceAs (Decidable (_ ∧ _))

/-- `separate_chaining_map`/`separate_chaining_set` in a debug build -/
abbrev dbgMap (k : DbgCfg KB) (vops : BucketOps VB) (vnull : VB → Bool) (strat : Strategy) (maxBucket : Nat) (hk : HashKind)
    (kbits : Nat) : Cfg (SepDbg (DbgB KB) VB) Unit := sepDbgTable (dbgCfg k vops vnull strat maxBucket hk kbits)

/-- what is known after a history -/
theorem dbg_sem (h : SepDbgTabOK k vops vnull maxBucket hk kbits vbits tr W kw vw) {ops : List MapOp}
    (hops : ∀ op ∈ ops, DbgValid strat hk W kw vw op) :
    ∃ P : Par (SepDbg (DbgB KB) VB) Unit, Laws (dbgMap k vops vnull strat maxBucket hk kbits) P ∧ P.grow < 65 ∧ NoOverflow P ∧
      P.kw = kw ∧ P.vw = vw ∧ P.norm = fitNorm tr ∧ (∀ v, v < 2 ^ vw → P.normO v = P.norm vw v) ∧
      sepDbgNew hk kbits vbits kw vw = .ok () ∧ ∃ t,
      Tab.run (dbgMap k vops vnull strat maxBucket hk kbits) (Tab.new (dbgMap k vops vnull strat maxBucket hk kbits) kw vw) ops =
        .ok (t, FMap.empty.run (tr vw) ops) ∧ Sem (dbgMap k vops vnull strat maxBucket hk kbits) P t (FMap.empty.after (tr vw) ops) := by
  obtain ⟨KRep, VRep, L, hg, hnew⟩ := h.par strat true
  refine ⟨_, L, hg, fun _ _ _ _ h => h.1, rfl, rfl, rfl, fun v hv => fit_iff.mpr hv, hnew, ?_⟩
  obtain ⟨t', l, h1, h2, h3⟩ := Tab.run_new L hg ops (fun op hop => by
    obtain ⟨v1, v2⟩ := hops op hop
    refine ValidOp.opOK (vals := fun v => v < 2 ^ vw) L.hi_lt L.lo_pos (fun v hv => fit_iff.mpr hv)
      (fit_iff.mpr (Nat.two_pow_pos _)) v1 ?_
    by_cases hs : strat = .arbitrary
    · exact .inl (v2 hs)
    · exact .inr (decide_eq_true hs))
  have e := FMap.run_congr (f := fitNorm tr vw) (g := tr vw) (fit_eq (Nat.two_pow_pos _)) (fun v hv => fit_eq hv) ops FMap.empty
    (fun op hop => (hops op hop).1)
  refine ⟨t', ?_, l, h2, ?_⟩
  · rw [← e.1]; exact h1
  · rw [← e.2]; exact h3

/-! ## C77 -/

/-- **C77** (answers): in a debug build every sequence of valid calls on a new table runs without a failing assertion and gives the
answers of a finite map. -/
theorem C77_debug_semantics (h : SepDbgTabOK k vops vnull maxBucket hk kbits vbits tr W kw vw) (strat : Strategy) (ops : List MapOp)
    (hops : ∀ op ∈ ops, DbgValid strat hk W kw vw op) :
    sepDbgNew hk kbits vbits kw vw = .ok () ∧ ∃ t,
      Tab.run (dbgMap k vops vnull strat maxBucket hk kbits) (Tab.new (dbgMap k vops vnull strat maxBucket hk kbits) kw vw) ops =
        .ok (t, FMap.empty.run (tr vw) ops) := by
  obtain ⟨P, _, _, _, _, _, _, _, hnew, t, h1, _⟩ := dbg_sem (strat := strat) h hops
  exact ⟨hnew, t, h1⟩

/-- The instantiation of the other examples in a debug build, with `uint64_t` as `key_type` -/
theorem dbgExOK : SepDbgTabOK (dbgPlain 16 12345) (dbgOps (dbgPlain 32 678)) (fun b => b.data.isNone) 3 (.xorshift 16) 64 32
    (fun _ v => v % 2 ^ 32) 16 10 20 where
  keys := .plain (by simp)
  vals := .plain (by simp)
  max := by decide
  hash := exOK.hash
  vw_pos := by decide
  vw_le := by decide
  ktype := by simp
  kw_le := by decide

/-- the table class of the examples -/
abbrev dbgEx : Cfg (SepDbg (DbgB PlainB) (DbgB PlainB)) Unit :=
  dbgMap (dbgPlain 16 12345) (dbgOps (dbgPlain 32 678)) (fun b => b.data.isNone) .arbitrary 3 (.xorshift 16) 64

theorem dbgExOps_valid : ∀ op ∈ exOps, DbgValid .arbitrary (.xorshift 16) 16 10 20 op := by decide +kernel

example : ∃ t, Tab.run dbgEx (Tab.new dbgEx 10 20) exOps = .ok (t, FMap.empty.run (fun v => v % 2 ^ 32) exOps) :=
  (C77_debug_semantics dbgExOK .arbitrary exOps dbgExOps_valid).2

/-- the same calls on the same table without the final state being known in advance: 60 entries in 128 buckets -/
theorem dbgExAfter : ∃ t as, Tab.run dbgEx (Tab.new dbgEx 10 20) exOps = .ok (t, as) ∧ t.bucketCount = 128 ∧ t.size = 60 := by
  have h : (match Tab.run dbgEx (Tab.new dbgEx 10 20) exOps with
    | .ok (t, _) => t.bucketCount == 128 && t.size == 60
    | .error _ => false) = true := by decide +kernel
  revert h
  generalize Tab.run _ _ _ = r
  cases r with
  | error e => intro h; cases h
  | ok r =>
    intro h
    simp only [Bool.and_eq_true, beq_iff_eq] at h
    exact ⟨r.1, r.2, rfl, h.1, h.2⟩

/-- `varwidth_bucket` for keys and values, multiplicative hashing and 40-bit keys -/
example : SepDbgTabOK (dbgVar ⟨8, false, fun _ => true⟩ 0) (dbgOps (dbgVar ⟨64, false, fun _ => true⟩ 0)) (fun b => b.data.isNone)
    255 (.multiplicative 64) 64 64 (fun w v => v % 2 ^ w) 64 40 33 where
  keys := .varwidth ⟨.inl rfl, .inl rfl⟩ rfl
  vals := .varwidth ⟨.inr (.inr (.inr rfl)), .inl rfl⟩ rfl
  max := by decide
  hash := by simp only [HashKind.Supports]; omega
  vw_pos := by decide
  vw_le := by decide
  ktype := by simp
  kw_le := by decide

/-- `avx2_bucket` as a set -/
example : SepDbgTabOK (dbgAvx 32 7) nullOps (fun _ => true) 255 (.xorshift 32) 32 8 (fun _ _ => 1) 32 20 1 where
  keys := .avx (by simp)
  vals := .null
  max := by decide
  hash := by
    have : sepIni 20 = 4 := by decide +kernel
    simp [HashKind.Supports, this]
  vw_pos := by decide
  vw_le := by decide
  ktype := by simp
  kw_le := by decide

/-- **C77** (iteration): nor does an assertion fail when the resulting table is traversed forwards, backwards, or backwards
with erasing; navigators obtained from `find` can be compared and dereferenced. -/
theorem C77_debug_iteration (h : SepDbgTabOK k vops vnull maxBucket hk kbits vbits tr W kw vw) {ops : List MapOp}
    (hops : ∀ op ∈ ops, DbgValid strat hk W kw vw op) {t : Tab (SepDbg (DbgB KB) VB) Unit} {as : List Ans}
    (ht : Tab.run (dbgMap k vops vnull strat maxBucket hk kbits) (Tab.new (dbgMap k vops vnull strat maxBucket hk kbits) kw vw) ops =
      .ok (t, as)) :
    ForwardSpec (dbgMap k vops vnull strat maxBucket hk kbits) kw t ∧ NavSpec (dbgMap k vops vnull strat maxBucket hk kbits) kw t ∧
      SizeSpec (dbgMap k vops vnull strat maxBucket hk kbits) kw t ∧
      (t.size ≠ 0 → ∃ l t', t.pairs (dbgMap k vops vnull strat maxBucket hk kbits) = .ok l ∧
        t.pairsBack (dbgMap k vops vnull strat maxBucket hk kbits) = .ok l.reverse ∧
        t.drainAll (dbgMap k vops vnull strat maxBucket hk kbits) = .ok (t', l.reverse) ∧ t'.size = 0) := by
  obtain ⟨P, L, hg, hno, e1, e2, e3, e4, _, t', h1, h2⟩ := dbg_sem (strat := strat) h hops
  rw [ht] at h1
  have : t = t' := congrArg Prod.fst (Except.ok.inj h1)
  subst this
  subst e1
  refine ⟨fact_forward L hno h2, fact_nav L hno h2, fact_size L hno h2, fun hne => ?_⟩
  obtain ⟨l, a1, a2⟩ := fact_backward L hno h2 hne
  obtain ⟨l', t', b1, b2, b3⟩ := fact_drain L hno h2 hne
  rw [a1] at b1
  cases b1
  exact ⟨l, t', a1, a2, b2, b3.size⟩

example : ∃ (t : Tab (SepDbg (DbgB PlainB) (DbgB PlainB)) Unit) (l : List (Nat × Nat)) (t' : Tab (SepDbg (DbgB PlainB) (DbgB PlainB)) Unit),
    t.pairsBack dbgEx = .ok l ∧ l.length = 60 ∧ t.drainAll dbgEx = .ok (t', l) ∧ t'.size = 0 := by
  obtain ⟨t, as, h1, _, h3⟩ := dbgExAfter
  obtain ⟨_, _, ⟨_, ⟨l, e1, e2⟩, _⟩, h⟩ := C77_debug_iteration dbgExOK dbgExOps_valid h1
  obtain ⟨l', t', a1, a2, a3, a4⟩ := h (by omega)
  rw [e1] at a1
  cases a1
  exact ⟨t, l.reverse, t', a2, by rw [List.length_reverse]; omega, a3, a4⟩

/-! ## C78 -/

theorem Tab.run_append {S O : Type} (g : Cfg S O) : ∀ (ops ops' : List MapOp) {t t' : Tab S O} {as : List Ans},
    Tab.run g t ops = .ok (t', as) → Tab.run g t (ops ++ ops') = (do
      let (t'', bs) ← Tab.run g t' ops'
      return (t'', as ++ bs)) := by
  intro ops
  induction ops with
  | nil =>
    intro ops' t t' as h
    cases h
    cases h' : Tab.run g t ops' <;> simp [h']
  | cons op ops ih =>
    intro ops' t t' as h
    simp only [Tab.run] at h
    obtain ⟨⟨t1, a⟩, h1, h⟩ := bind_eq_ok h
    obtain ⟨⟨t2, bs⟩, h2, h⟩ := bind_eq_ok h
    cases h
    simp only [List.cons_append, Tab.run, h1, ok_bind, ih ops' h2]
    cases h' : Tab.run g t2 ops' <;> simp

theorem Tab.run_one_error {S O : Type} (g : Cfg S O) {ops : List MapOp} {op : MapOp} {t t' : Tab S O} {as : List Ans} {e : Fault}
    (h : Tab.run g t ops = .ok (t', as)) (h1 : t'.step g op = .error e) : Tab.run g t (ops ++ [op]) = .error e := by
  rw [Tab.run_append g _ _ h]
  simp only [Tab.run, h1, error_bind]

theorem step_insert_error {S O : Type} {g : Cfg S O} {t : Tab S O} {x v : Nat} {e : Fault}
    (h : Tab.findOrInsert g (64 + 1) t x v = .error e) : t.step g (.insert x v) = .error e := by
  have h' : t.insert g x v = .error e := h
  simp only [Tab.step, h', error_bind]

/-- **C78** (`reserve(1)`): with `arbitrary_resize` a debug build throws at the first insertion after `reserve(1)`; the same calls
are valid in a release build (C15). -/
theorem C78_debug_reserve_one (k : DbgCfg KB) (vops : BucketOps VB) (vnull : VB → Bool) (maxBucket : Nat) (hk : HashKind)
    (kbits : Nat) {kw : Nat} (hkw : 2 ≤ kw) (hkw' : kw ≤ 64) (vw x v : Nat) :
    Tab.run (dbgMap k vops vnull .arbitrary maxBucket hk kbits) (Tab.new (dbgMap k vops vnull .arbitrary maxBucket hk kbits) kw vw)
      [.reserve 1, .insert x v] = .error .exc := by
  generalize hg : dbgMap k vops vnull .arbitrary maxBucket hk kbits = g
  have h1 : ∃ t, Tab.run g (Tab.new g kw vw) [.reserve 1] = .ok (t, [.none]) ∧ t.tb = 0 ∧ t.kw = kw ∧ g.stale t.store = true ∧
      g.debug = true ∧ g.initBuckets = 16 := by
    subst hg
    exact ⟨_, rfl, rfl, rfl, rfl, rfl, rfl⟩
  obtain ⟨t, h1, h2, h3, h4, h5, h6⟩ := h1
  refine Tab.run_one_error g h1 ?_
  have hb := reserveBits_ceilLog (n := min (t.kw - 1) g.initBuckets) (by omega) (by
    have : (64 : Nat) ≤ 2 ^ 63 := by decide
    omega)
  refine step_insert_error ?_
  unfold Tab.findOrInsert
  rw [h5, ddcheck_ok (show 1 < t.kw by omega), ok_bind, if_pos h2]
  simp only [Tab.reserveEmpty, hb, h5, ddcheck_fails (show ¬ (g.stale t.store = false) by rw [h4]; simp), ok_bind, error_bind]

/-- the same calls in a release build -/
example : ∃ t, Tab.run (sepMap exCfg (.xorshift 16)) (Tab.new (sepMap exCfg (.xorshift 16)) 10 20) [.reserve 1, .insert 5 7] =
    .ok (t, [.none, .pair 5 7]) := C15_separate_map_semantics exOK [.reserve 1, .insert 5 7] (by decide +kernel)

example : Tab.run dbgEx (Tab.new dbgEx 10 20) [.reserve 1, .insert 5 7] = .error .exc :=
  C78_debug_reserve_one (dbgPlain 16 12345) (dbgOps (dbgPlain 32 678)) (fun b => b.data.isNone) 3 (.xorshift 16) 64
    (show 2 ≤ 10 by decide) (by decide) 20 5 7

/-- **C78** (values): a debug build throws when a value with more than `value_width()` bits is assigned. -/
theorem C78_debug_wide_value (h : SepDbgTabOK k vops vnull maxBucket hk kbits vbits tr W kw vw) {ops : List MapOp}
    (hops : ∀ op ∈ ops, DbgValid strat hk W kw vw op) {x v : Nat} (hx : x < 2 ^ kw) (hv : 2 ^ vw ≤ v) :
    Tab.run (dbgMap k vops vnull strat maxBucket hk kbits) (Tab.new (dbgMap k vops vnull strat maxBucket hk kbits) kw vw)
      (ops ++ [.assign x v]) = .error .exc := by
  obtain ⟨P, L, hg, hno, e1, e2, e3, e4, _, t, h1, l, h2, h3⟩ := dbg_sem (strat := strat) h hops
  subst e1 e2
  refine Tab.run_one_error _ h1 ?_
  obtain ⟨t', n, y, l', c, o, full, a1, _, _, hl, hloc, _⟩ := h2.insert_abs L hg h3 hx (e4 0 (Nat.two_pow_pos _))
  have a1' : t.subscript (dbgMap k vops vnull strat maxBucket hk kbits) x = .ok (t', n) := a1
  have ho : o = [] := hno _ _ _ _ hl.orep
  subst ho
  rcases hloc with ⟨q, b, i, hi, rfl, hb, hm, hc, hk'⟩ | ⟨p, _, hp⟩
  · have hbc := hl.bc L
    have hvw : (t'.dim (dbgMap k vops vnull strat maxBucket hk kbits)).vw = P.vw := hl.tvw
    have hw : (dbgMap k vops vnull strat maxBucket hk kbits).ops.writeValue t'.store
        (t'.dim (dbgMap k vops vnull strat maxBucket hk kbits)) b i v = .error .exc := by
      show ((ddcheck true (b < t'.store.base.n)) >>= fun _ => _) = _
      by_cases hbn : b < t'.store.base.n
      · rw [ddcheck_ok hbn, ok_bind, hvw, ddcheck_fails (by have := Nat.two_pow_pos P.vw; omega), error_bind]
      · rw [ddcheck_fails hbn, error_bind]
    simp only [Tab.step, a1', ok_bind, Tab.writeValue, hbc, if_neg (show ¬ b = 2 ^ t'.tb by omega), ddcheck_ok hb, hw, error_bind]
  · simp at hp

example : Tab.run dbgEx (Tab.new dbgEx 10 20) (exOps ++ [.assign 5 (2 ^ 20)]) = .error .exc :=
  C78_debug_wide_value dbgExOK dbgExOps_valid (show 5 < 2 ^ 10 by decide) (Nat.le_refl _)

theorem dbgMapping_exc {hk : HashKind} (hbij : hk ≠ .splitMix) {kw x tb : Nat} (h1 : 1 ≤ kw) (h2 : kw ≤ 64) (hx : 2 ^ kw ≤ x) :
    (hk.dbgMapping kw).map x tb = .error .exc := by
  have hmask : maskCheck kw x = .error .exc := by
    unfold maskCheck
    have := Nat.two_pow_pos kw
    rw [hashMask_eq h1 h2, ok_bind, ddcheck_fails (by omega)]
  cases hk with
  | xorshift s => simp only [HashKind.dbgMapping, dbgBijectiveHashAdapter, dbgXorshift, dbgXorshiftHash, hmask, error_bind]
  | multiplicative s => simp only [HashKind.dbgMapping, dbgBijectiveHashAdapter, dbgMultiplicative, dbgMultHash, hmask, error_bind]
  | splitMix => exact absurd rfl hbij

/-- **C78** (keys): with a bijective hash function a debug build throws when a key above `max_key()` is inserted. -/
theorem C78_debug_large_key (h : SepDbgTabOK k vops vnull maxBucket hk kbits vbits tr W kw vw) (hbij : hk ≠ .splitMix)
    {ops : List MapOp} (hops : ∀ op ∈ ops, DbgValid strat hk W kw vw op) {x : Nat} (hx : 2 ^ kw ≤ x) (v : Nat) :
    Tab.run (dbgMap k vops vnull strat maxBucket hk kbits) (Tab.new (dbgMap k vops vnull strat maxBucket hk kbits) kw vw)
      (ops ++ [.insert x v]) = .error .exc := by
  obtain ⟨P, L, hg, hno, e1, e2, e3, e4, _, t, h1, l, h2, h3⟩ := dbg_sem (strat := strat) h hops
  subst e1 e2
  refine Tab.run_one_error _ h1 ?_
  have hkw : 3 ≤ P.kw := by have := h.hash; cases hk <;> exact this.1
  have hex : ∀ tb, ((dbgMap k vops vnull strat maxBucket hk kbits).hash P.kw).map x tb = .error .exc :=
    fun tb => dbgMapping_exc hbij (by omega) L.kw_le hx
  have main : ∀ t1 : Tab (SepDbg (DbgB KB) VB) Unit, t1.kw = P.kw → (if t.tb = 0 then t.reserveEmpty
      (dbgMap k vops vnull strat maxBucket hk kbits) (min (t.kw - 1) (dbgMap k vops vnull strat maxBucket hk kbits).initBuckets)
      else .ok t : Res _) = .ok t1 → t.kw = P.kw → t.step (dbgMap k vops vnull strat maxBucket hk kbits) (.insert x v) = .error .exc := by
    intro t1 a1 a2 a3
    refine step_insert_error ?_
    unfold Tab.findOrInsert
    rw [ddcheck_ok (show 1 < t.kw by omega), ok_bind, a2, ok_bind]
    simp only [Tab.hash, a1, hex, error_bind]
  rcases h2 with ⟨b1, b2, b3, b4, b5, b6, rfl, hst, n, full, b7⟩ | ⟨c, o, full, hl, hp⟩
  · obtain ⟨hi1, hi2, hi3⟩ := L.init
    rw [← b1] at hi1
    obtain ⟨t1, full1, g1, g2, g3, _⟩ := reserveEmpty_ok L b1 b2 b3 b4 b6 b7 hst hi1 hi2 hi3
    exact main t1 g2.tkw (by rw [if_pos b5]; exact g1) b1
  · have := hl.tb_pos L
    exact main t hl.tkw (by rw [if_neg (by omega)]) hl.tkw

example : Tab.run dbgEx (Tab.new dbgEx 10 20) (exOps ++ [.insert 1024 1]) = .error .exc :=
  C78_debug_large_key dbgExOK (by simp) dbgExOps_valid (show 2 ^ 10 ≤ 1024 by decide) 1

end SC
