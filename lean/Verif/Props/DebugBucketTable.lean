import Verif.Props.BucketTable
/-!
# Debug builds of `bucket_table`, and `operator[]` of a constant `bucket_table`: C83, C84, C85
-/
namespace SC
variable {A : Type} {c : BtCfg A (DbgB PlainB)} {W kw : Nat}

/-- the instantiations of a debug build that are covered: bucket classes of the library, keys that fit -/
structure BtDbgOK (c : BtCfg A (DbgB PlainB)) (W kw : Nat) : Prop where
  keys : IsBtDbgKey A c.kops c.knull W
  vals : IsBtDbgVal c.vops c.vnull c.vbits
  debug : c.debug = true
  kbits : c.kbits = W
  kw_pos : 1 ≤ kw
  kw_le : kw ≤ W

theorem IsBtDbgKey.le {ops : BucketOps A} {null : A → Bool} {W : Nat} (h : IsBtDbgKey A ops null W) : W ≤ 64 := by
  cases h <;> omega

theorem IsBtDbgVal.bounds {ops : BucketOps (DbgB PlainB)} {null : DbgB PlainB → Bool} {s : Nat} (h : IsBtDbgVal ops null s) : 1 ≤ s ∧ s ≤ 64 := by
  cases h <;> omega

theorem BtDbgOK.laws (h : BtDbgOK c W kw) : ∃ M, BtLaws c kw M := by
  obtain ⟨norm, Rep, spare, ok, K⟩ := h.keys.lawful
  obtain ⟨VRep, vok, V⟩ := h.vals.lawful
  have hW := h.keys.le
  have := h.kw_le
  exact ⟨⟨norm, Rep, spare, ok, VRep, vok⟩, K.core, K.find, K.opt, fun x hx => K.norm kw x h.kw_le hx, fun x hx => K.ok kw x h.kw_le hx,
    V.core, V.opt, V.ok, V.lt, h.kw_pos, by omega, h.vals.bounds.1, h.vals.bounds.2⟩

theorem BtDbgOK.make (h : BtDbgOK c W kw) : BTab.make c kw = .ok (BTab.new c kw) := by
  have := h.keys.le
  have := h.kw_le
  rw [BTab.make, h.kbits, ddcheck_ok h.kw_le, ok_bind, Nat.mod_eq_of_lt (by omega)]
  rfl

/-- the table after construction and the calls `ops` -/
def BtStarted {VB : Type} (c : BtCfg A VB) (kw : Nat) (ops : List MapOp) (t : BTab A VB) : Prop :=
  ∃ t0 as, BTab.make c kw = .ok t0 ∧ BTab.run c t0 ops = .ok (t, as)

/-- the bound on the number of elements -/
def btLimit : Strategy → Nat
  | .incremental => 2 ^ 32 - 1
  | .arbitrary => 255

theorem btLimit_eq (st : Strategy) : btLimit st = btMax st := by cases st <;> rfl

theorem BtDbgOK.started (h : BtDbgOK c W kw) {M : BtMean A (DbgB PlainB)} (L : BtLaws c kw M) {ops : List MapOp} (hops : ∀ op ∈ ops, BtValid kw op)
    (hfit : Fits (fun v => v % 2 ^ c.vbits) (btLimit c.strat) FMap.empty ops) {t : BTab A (DbgB PlainB)} (ht : BtStarted c kw ops t) :
    ∃ l, BtRep c kw M t l ∧ Abs l (FMap.empty.after (fun v => v % 2 ^ c.vbits) ops) := by
  rw [btLimit_eq] at hfit
  obtain ⟨t1, l, h1, h2, h3⟩ := BtRep.run L ops (BtRep.new L) Abs.empty hops hfit
  obtain ⟨t0, as, e1, e2⟩ := ht
  rw [h.make] at e1
  cases e1
  rw [h1] at e2
  cases e2
  exact ⟨l, h2, h3⟩

/-! ## Instantiations for the examples -/

/-- `bucket_table<varwidth_bucket<>, class_bucket<uint16_t>, incremental_resize>` -/
def btDbgEx : BtCfg (DbgB VarB) (DbgB PlainB) :=
  { kops := dbgOps (dbgVar ⟨64, true, fun _ => true⟩ 77), vops := dbgOps (dbgClass 16 78), knull := fun b => b.data.isNone, vnull := fun b => b.data.isNone,
    kbits := 64, vbits := 16, strat := .incremental, debug := true }

theorem btDbgExOK : BtDbgOK btDbgEx 64 11 where
  keys := .varwidth (by simp [VarCfg.good])
  vals := .class (by simp)
  debug := rfl
  kbits := rfl
  kw_pos := by decide
  kw_le := by decide

/-- `bucket_table<avx2_bucket<uint32_t>, plain_bucket<uint16_t>, arbitrary_resize_bucket>` -/
def btDbgExA : BtCfg (DbgB PlainB) (DbgB PlainB) :=
  { kops := dbgOps (dbgAvx 32 0), vops := dbgOps (dbgPlain 16 0), knull := fun b => b.data.isNone, vnull := fun b => b.data.isNone,
    kbits := 32, vbits := 16, strat := .arbitrary, debug := true }

theorem btDbgExAOK : BtDbgOK btDbgExA 32 32 where
  keys := .avx (by simp)
  vals := .plain (by simp)
  debug := rfl
  kbits := rfl
  kw_pos := by decide
  kw_le := by decide

/-! ## C83 -/

/-- **C83**: in a debug build no assertion fails, neither in the constructor nor in any sequence of calls with keys up to `max_key()`
that keeps the number of elements within the bound, and the answers are those of a finite map. -/
theorem C83_bucket_table_debug_semantics (h : BtDbgOK c W kw) (ops : List MapOp) (hops : ∀ op ∈ ops, BtValid kw op)
    (hfit : Fits (fun v => v % 2 ^ c.vbits) (match c.strat with | .incremental => 2 ^ 32 - 1 | .arbitrary => 255) FMap.empty ops) :
    ∃ t0 t, BTab.make c kw = .ok t0 ∧ BTab.run c t0 ops = .ok (t, FMap.empty.run (fun v => v % 2 ^ c.vbits) ops) := by
  obtain ⟨M, L⟩ := h.laws
  obtain ⟨t, l, h1, _⟩ := BtRep.run L ops (BtRep.new L) Abs.empty hops (by cases hs : c.strat <;> rw [hs] at hfit <;> exact hfit)
  exact ⟨_, t, h.make, h1⟩

example : ∃ t0 t, BTab.make btDbgEx 11 = .ok t0 ∧ BTab.run btDbgEx t0 btExOps = .ok (t, FMap.empty.run (fun v => v % 2 ^ 16) btExOps) :=
  C83_bucket_table_debug_semantics btDbgExOK btExOps btExOps_valid btExOps_fits

theorem btDbgEx_started : ∃ t, BtStarted btDbgEx 11 btExOps t := by
  obtain ⟨t0, t, h1, h2⟩ := C83_bucket_table_debug_semantics btDbgExOK btExOps btExOps_valid btExOps_fits
  exact ⟨t, t0, _, h1, h2⟩

/-- **C83**: nor does an assertion fail in forward iteration, backward iteration or `shrink_to_fit()`. -/
theorem C83_bucket_table_debug_iteration (h : BtDbgOK c W kw) {ops : List MapOp} (hops : ∀ op ∈ ops, BtValid kw op)
    (hfit : Fits (fun v => v % 2 ^ c.vbits) (btLimit c.strat) FMap.empty ops) {t : BTab A (DbgB PlainB)} (ht : BtStarted c kw ops t) :
    ∃ l, t.pairs c = .ok l ∧ t.pairsBack c = .ok l.reverse ∧ (l.map Prod.fst).Nodup ∧
      (∀ k v, (k, v) ∈ l ↔ (FMap.empty.after (fun v => v % 2 ^ c.vbits) ops).get k = some v) ∧
      ∃ t', t.shrink c = .ok t' ∧ t'.pairs c = .ok l ∧ (l ≠ [] → t'.capacity c = l.length) := by
  obtain ⟨M, L⟩ := h.laws
  obtain ⟨l, h2, h3⟩ := h.started L hops hfit ht
  obtain ⟨t', s1, s2, s3⟩ := h2.shrink L
  exact ⟨l, h2.pairs L, h2.pairsBack L, h2.nodup, fun k v => (h3.get k v).symm, t', s1, s2.pairs L, s3⟩

example : ∃ t l, BtStarted btDbgEx 11 btExOps t ∧ t.pairs btDbgEx = .ok l ∧ (14, 7) ∈ l := by
  obtain ⟨t, ht⟩ := btDbgEx_started
  obtain ⟨l, h1, _, _, h2, _⟩ := C83_bucket_table_debug_iteration btDbgExOK btExOps_valid btExOps_fits ht
  exact ⟨t, l, ht, h1, (h2 14 7).mpr (by decide +kernel)⟩

/-! ## C84 -/

/-- **C84**: a debug build notices the insertion of a 256th key into a table with `arbitrary_resize_bucket`, for every class of buckets.
(The release build writes behind the end of the bucket, C47.) -/
theorem C84_bucket_table_debug_full (h : BtDbgOK c W kw) (hst : c.strat = .arbitrary) {ops : List MapOp} (hops : ∀ op ∈ ops, BtValid kw op)
    (hfit : Fits (fun v => v % 2 ^ c.vbits) 255 FMap.empty ops) {t : BTab A (DbgB PlainB)} (ht : BtStarted c kw ops t)
    (hfull : (FMap.empty.after (fun v => v % 2 ^ c.vbits) ops).size = 255) {k v : Nat} (hk : k < 2 ^ kw)
    (hnew : (FMap.empty.after (fun v => v % 2 ^ c.vbits) ops).get k = none) : t.insert c k v = .error .exc := by
  obtain ⟨M, L⟩ := h.laws
  obtain ⟨l, h2, h3⟩ := h.started L hops (by rw [hst]; exact hfit) ht
  exact h2.insert_full L h.debug hst (by rw [← h3.size]; exact hfull) hk (h3.none.mp hnew)

example : ∃ t, BtStarted btDbgExA 32 (btFill 255) t ∧ t.insert btDbgExA 255 0 = .error .exc := by
  have hfit : Fits (fun v => v % 2 ^ 16) 255 FMap.empty (btFill 255) := fits_of_length btFill_length
  obtain ⟨t0, t, h1, h2⟩ := C83_bucket_table_debug_semantics btDbgExAOK (btFill 255) btFill_valid hfit
  have ht : BtStarted btDbgExA 32 (btFill 255) t := ⟨t0, _, h1, h2⟩
  refine ⟨t, ht, C84_bucket_table_debug_full btDbgExAOK rfl btFill_valid hfit ht (btFill_after 255).2 (by decide) ?_⟩
  rw [show btDbgExA.vbits = 16 from rfl, (btFill_after 255).1, if_neg (by omega)]

/-- **C84**: a debug build notices an insertion, an access by `operator[]`, or an assignment with a key above `max_key()`. -/
theorem C84_bucket_table_debug_large_key (h : BtDbgOK c W kw) {ops : List MapOp} (hops : ∀ op ∈ ops, BtValid kw op)
    (hfit : Fits (fun v => v % 2 ^ c.vbits) (btLimit c.strat) FMap.empty ops) {t : BTab A (DbgB PlainB)} (ht : BtStarted c kw ops t) {k : Nat}
    (hk : 2 ^ kw ≤ k) (v : Nat) :
    t.step c (.insert k v) = .error .exc ∧ t.step c (.get k) = .error .exc ∧ t.step c (.assign k v) = .error .exc ∧ t.at c k = .error .exc := by
  obtain ⟨M, L⟩ := h.laws
  obtain ⟨l, h2, _⟩ := h.started L hops hfit ht
  have hp := Nat.two_pow_pos kw
  have e : ∀ v, t.insert c k v = .error .exc := by
    intro v
    rw [BTab.insert, h.debug, h2.width, ddcheck_fails (by omega)]
    rfl
  refine ⟨?_, ?_, ?_, ?_⟩
  · simp only [BTab.step, e, error_bind]
  · simp only [BTab.step, e, error_bind]
  · simp only [BTab.step, e, error_bind]
  · rw [BTab.at, h.debug, h2.width, ddcheck_fails (by omega)]
    rfl

example : ∃ t, BtStarted btDbgEx 11 btExOps t ∧ t.step btDbgEx (.insert 2048 5) = .error .exc := by
  obtain ⟨t, ht⟩ := btDbgEx_started
  exact ⟨t, ht, (C84_bucket_table_debug_large_key btDbgExOK btExOps_valid btExOps_fits ht (k := 2048) (by decide) 5).1⟩

/-- **C84**: a debug build notices a key width above that of `key_type`. -/
theorem C84_bucket_table_debug_width {A VB : Type} {c : BtCfg A VB} (hd : c.debug = true) {w : Nat} (hw : c.kbits < w) :
    BTab.make c w = .error .exc := by
  rw [BTab.make, hd, ddcheck_fails (by omega)]
  rfl

example : BTab.make btDbgExA 33 = .error .exc := C84_bucket_table_debug_width rfl (by decide)

/-! ## C85 -/

/-- **C85**, debug builds: `operator[]` of a constant table gives the value of a key that is present; for a key that is absent an assertion
fails. -/
theorem C85_const_access_debug (h : BtDbgOK c W kw) {ops : List MapOp} (hops : ∀ op ∈ ops, BtValid kw op)
    (hfit : Fits (fun v => v % 2 ^ c.vbits) (btLimit c.strat) FMap.empty ops) {t : BTab A (DbgB PlainB)} (ht : BtStarted c kw ops t) {k : Nat}
    (hk : k < 2 ^ kw) :
    t.at c k = match (FMap.empty.after (fun v => v % 2 ^ c.vbits) ops).get k with
      | some x => .ok x
      | none => .error .exc := by
  obtain ⟨M, L⟩ := h.laws
  obtain ⟨l, h2, h3⟩ := h.started L hops hfit ht
  cases hg : (FMap.empty.after (fun v => v % 2 ^ c.vbits) ops).get k with
  | some x => exact h2.at_mem L hk ((h3.get k x).mp hg)
  | none => exact h2.at_debug L h.debug hk (h3.none.mp hg)

example : ∃ t, BtStarted btDbgEx 11 btExOps t ∧ t.at btDbgEx 14 = .ok 7 ∧ t.at btDbgEx 21 = .error .exc := by
  obtain ⟨t, ht⟩ := btDbgEx_started
  have h1 := C85_const_access_debug btDbgExOK btExOps_valid btExOps_fits ht (k := 14) (by decide)
  have h2 := C85_const_access_debug btDbgExOK btExOps_valid btExOps_fits ht (k := 21) (by decide)
  have e1 : (FMap.empty.after (fun v => v % 2 ^ btDbgEx.vbits) btExOps).get 14 = some 7 := by decide +kernel
  have e2 : (FMap.empty.after (fun v => v % 2 ^ btDbgEx.vbits) btExOps).get 21 = none := by decide +kernel
  rw [e1] at h1
  rw [e2] at h2
  exact ⟨t, ht, h1, h2⟩

/-- **C85**, release builds: `operator[]` of a constant table gives the value of a key that is present; for a key that is absent the call
reads outside of the array of values, or through a null pointer if the table is empty. -/
theorem C85_const_access_release {c : BtCfg A PlainB} (h : BtOK c W kw) (hd : c.debug = false) {ops : List MapOp} (hops : ∀ op ∈ ops, BtValid kw op)
    (hfit : Fits (fun v => v % 2 ^ c.vbits) (btLimit c.strat) FMap.empty ops) {t : BTab A PlainB} (ht : BtAfter c kw ops t) {k : Nat}
    (hk : k < 2 ^ kw) :
    t.at c k = match (FMap.empty.after (fun v => v % 2 ^ c.vbits) ops).get k with
      | some x => .ok x
      | none => .error (if (FMap.empty.after (fun v => v % 2 ^ c.vbits) ops).size = 0 then .null else .oob) := by
  obtain ⟨norm, Rep, spare, ok, K⟩ := h.keys.lawful
  have V := h.vals.lawful
  have hW := h.keys.le
  have hkw := h.kw_le
  have L : BtLaws c kw ⟨norm, Rep, spare, ok, PlainRep c.vbits, fun _ _ => True⟩ :=
    ⟨K.core, K.find, K.opt, fun x hx => K.norm kw x h.kw_le hx, fun x hx => K.ok kw x h.kw_le hx,
      V.core, V.opt, V.ok, V.lt, h.kw_pos, by omega, h.vals.bounds.1, h.vals.bounds.2⟩
  rw [btLimit_eq] at hfit
  obtain ⟨t1, l, h1, h2, h3⟩ := BtRep.run L ops (BtRep.new L) Abs.empty hops hfit
  obtain ⟨as, ht⟩ := ht
  rw [h1] at ht
  cases ht
  cases hg : (FMap.empty.after (fun v => v % 2 ^ c.vbits) ops).get k with
  | some x => exact h2.at_mem L hk ((h3.get k x).mp hg)
  | none =>
    have hread : ∀ b i, c.vops.read b i c.vbits = cellRead b i := by
      have := h.vals
      revert this
      generalize c.vops = vo
      generalize c.vnull = vn
      generalize c.vbits = s
      intro this b i
      cases this <;> rfl
    have hnul : ∀ b, c.vnull b = Option.isNone b := by
      have := h.vals
      revert this
      generalize c.vops = vo
      generalize c.vnull = vn
      generalize c.vbits = s
      intro this b
      cases this <;> rfl
    rw [h2.at_release L hd hk (h3.none.mp hg), hread, h3.size]
    obtain ⟨e1, _, e2⟩ | ⟨e1, _, kc, vc, _, ⟨rest, e2, e3, _⟩, _, e4⟩ := h2.mem
    · rw [hnul, Option.isNone_iff_eq_none] at e2
      rw [e2, e1]
      rfl
    · have hmax := btMax_lt c.strat
      rw [e2, if_neg (fun e => e1 (List.eq_nil_of_length_eq_zero e)), cellRead,
        List.getElem?_eq_none (by
          rw [List.length_append, List.length_map, e3, NPOS]
          omega)]

example : ∃ t, BtAfter btEx 11 btExOps t ∧ t.at btEx 14 = .ok 7 ∧ t.at btEx 21 = .error .oob := by
  obtain ⟨t, ht⟩ := C46_bucket_table_map btExOK btExOps btExOps_valid btExOps_fits
  have ht : BtAfter btEx 11 btExOps t := ⟨_, ht⟩
  have h1 := C85_const_access_release btExOK rfl btExOps_valid btExOps_fits ht (k := 14) (by decide)
  have h2 := C85_const_access_release btExOK rfl btExOps_valid btExOps_fits ht (k := 21) (by decide)
  have e1 : (FMap.empty.after (fun v => v % 2 ^ btEx.vbits) btExOps).get 14 = some 7 := by decide +kernel
  have e2 : (FMap.empty.after (fun v => v % 2 ^ btEx.vbits) btExOps).get 21 = none := by decide +kernel
  have e3 : (FMap.empty.after (fun v => v % 2 ^ btEx.vbits) btExOps).size ≠ 0 := by decide +kernel
  rw [e1] at h1
  rw [e2, if_neg e3] at h2
  exact ⟨t, ht, h1, h2⟩

end SC
