import Verif.Compact.DebugTable
import Verif.Table.FitRun
import Verif.Props.Compact
import Verif.Props.Debug
/-!
# Properties of debug builds of `compact_chaining_map`: C79, C80

`v` describes `storage_type` and fresh memory, `hk` is the hash mapping, `kbits` the number of bits of `key_type`.
-/
namespace SC

variable {v : VarCfg} {hk : HashKind} {kbits kw vw : Nat}

/-- Valid calls in a debug build: as in a release build, and values have at most `value_width()` bits. -/
def CmpDbgValid (hk : HashKind) (kw vw : Nat) (op : MapOp) : Prop :=
  ValidOp kw (hk.lo kw 64) (hk.width kw - 1) (fun v => v < 2 ^ vw) op

instance (hk : HashKind) (kw vw : Nat) (op : MapOp) : Decidable (CmpDbgValid hk kw vw op) :=
  inferInstanceAs (Decidable (ValidOp _ _ _ _ _))

/-- `compact_chaining_map` in a debug build -/
abbrev cmpDbg (v : VarCfg) (hk : HashKind) (kbits : Nat) : Cfg CmpDbg Unit := cmpDbgMap (cmpDbgCfg v hk kbits)

/-- what is known after a history -/
theorem cmpDbg_sem (h : CmpDbgTabOK v hk kbits kw vw) {ops : List MapOp} (hops : ∀ op ∈ ops, CmpDbgValid hk kw vw op) :
    ∃ t, Tab.run (cmpDbg v hk kbits) (Tab.new (cmpDbg v hk kbits) kw vw) ops = .ok (t, FMap.empty.run (fun v => v % 2 ^ vw) ops) ∧
      Sem (cmpDbg v hk kbits) (cmpDbgPar (cmpDbgCfg v hk kbits) hk kw vw) t (FMap.empty.after (fun v => v % 2 ^ vw) ops) := by
  obtain ⟨L, hg, _⟩ := h.par
  exact fit_sem L hg (tr := fun w v => v % 2 ^ w) rfl rfl rfl hops

/-! ## C79 -/

/-- **C79** (answers): in a debug build of `compact_chaining_map` every sequence of valid calls on a new map runs without a failing
assertion and gives the answers of a finite map. -/
theorem C79_compact_debug_semantics (h : CmpDbgTabOK v hk kbits kw vw) (ops : List MapOp) (hops : ∀ op ∈ ops, CmpDbgValid hk kw vw op) :
    cmpDbgNew hk kbits kw vw = .ok () ∧ ∃ t,
      Tab.run (cmpDbg v hk kbits) (Tab.new (cmpDbg v hk kbits) kw vw) ops = .ok (t, FMap.empty.run (fun v => v % 2 ^ vw) ops) := by
  obtain ⟨t, h1, _⟩ := cmpDbg_sem h hops
  exact ⟨h.par.2.2, t, h1⟩

/-- the instantiation of the examples of the release build, with `uint64_t` as `key_type` -/
theorem cmpDbgExOK : CmpDbgTabOK cmpEx (.xorshift 64) 64 11 13 where
  ok := cmpExOK
  ktype := by simp
  kw_le := by decide

theorem cmpDbgExOps_valid : ∀ op ∈ cmpExOps, CmpDbgValid (.xorshift 64) 11 13 op := by decide +kernel

/-- the map of the examples -/
abbrev cmpDbgEx : Cfg CmpDbg Unit := cmpDbg cmpEx (.xorshift 64) 64

example : ∃ t, Tab.run cmpDbgEx (Tab.new cmpDbgEx 11 13) cmpExOps = .ok (t, FMap.empty.run (fun v => v % 2 ^ 13) cmpExOps) :=
  (C79_compact_debug_semantics cmpDbgExOK cmpExOps cmpDbgExOps_valid).2

/-- the outcome of the history -/
theorem cmpDbgExAfter : ∃ t as, Tab.run cmpDbgEx (Tab.new cmpDbgEx 11 13) cmpExOps = .ok (t, as) ∧ t.bucketCount = 32 ∧ t.size = 40 := by
  have h : (match Tab.run cmpDbgEx (Tab.new cmpDbgEx 11 13) cmpExOps with
    | .ok (t, _) => t.bucketCount == 32 && t.size == 40
    | .error _ => false) = true := by decide +kernel
  revert h
  generalize Tab.run _ _ _ = r
  cases r with
  | error e => intro h; cases h
  | ok r =>
    intro h
    simp only [Bool.and_eq_true, beq_iff_eq] at h
    exact ⟨r.1, r.2, rfl, h.1, h.2⟩

/-- one-byte blocks, multiplicative hashing, 32-bit keys in `uint32_t`, 64-bit values -/
example : CmpDbgTabOK ⟨8, false, fun _ => true⟩ (.multiplicative 64) 32 32 64 where
  ok := { stor := by simp [VarCfg.good], hash := by simp only [HashKind.Supports]; omega, vw_pos := by decide, vw_le := by decide }
  ktype := by simp
  kw_le := by decide

/-- **C79** (iteration): nor does an assertion fail when the resulting map is traversed forwards, backwards, or backwards with
erasing; navigators obtained from `find` can be compared and dereferenced. -/
theorem C79_compact_debug_iteration (h : CmpDbgTabOK v hk kbits kw vw) {ops : List MapOp}
    (hops : ∀ op ∈ ops, CmpDbgValid hk kw vw op) {t : Tab CmpDbg Unit} {as : List Ans}
    (ht : Tab.run (cmpDbg v hk kbits) (Tab.new (cmpDbg v hk kbits) kw vw) ops = .ok (t, as)) :
    ForwardSpec (cmpDbg v hk kbits) kw t ∧ NavSpec (cmpDbg v hk kbits) kw t ∧ SizeSpec (cmpDbg v hk kbits) kw t ∧
      (t.size ≠ 0 → ∃ l t', t.pairs (cmpDbg v hk kbits) = .ok l ∧ t.pairsBack (cmpDbg v hk kbits) = .ok l.reverse ∧
        t.drainAll (cmpDbg v hk kbits) = .ok (t', l.reverse) ∧ t'.size = 0) := by
  obtain ⟨t', h1, h2⟩ := cmpDbg_sem h hops
  rw [ht] at h1
  have : t = t' := congrArg Prod.fst (Except.ok.inj h1)
  subst this
  exact fit_iteration h.par.1 (fun _ _ _ _ h => h.1) h2

example : ∃ (t : Tab CmpDbg Unit) (l : List (Nat × Nat)) (t' : Tab CmpDbg Unit),
    t.pairsBack cmpDbgEx = .ok l ∧ l.length = 40 ∧ t.drainAll cmpDbgEx = .ok (t', l) ∧ t'.size = 0 := by
  obtain ⟨t, as, h1, _, h3⟩ := cmpDbgExAfter
  obtain ⟨_, _, ⟨_, ⟨l, e1, e2⟩, _⟩, h⟩ := C79_compact_debug_iteration cmpDbgExOK cmpDbgExOps_valid h1
  obtain ⟨l', t', a1, a2, a3, a4⟩ := h (by omega)
  rw [e1] at a1
  cases a1
  exact ⟨t, l.reverse, t', a2, by rw [List.length_reverse]; omega, a3, a4⟩

/-! ## C80 -/

/-- **C80** (insertion): a debug build throws when a key that is not in the map is inserted with a value of more than `value_width()`
bits. -/
theorem C80_compact_debug_insert_wide (h : CmpDbgTabOK v hk kbits kw vw) {ops : List MapOp}
    (hops : ∀ op ∈ ops, CmpDbgValid hk kw vw op) {x y : Nat} (hx : x < 2 ^ kw) (hy : 2 ^ vw ≤ y) (h64 : y < 2 ^ 64)
    (hnew : (FMap.empty.after (fun v => v % 2 ^ vw) ops).get x = none) :
    Tab.run (cmpDbg v hk kbits) (Tab.new (cmpDbg v hk kbits) kw vw) (ops ++ [.insert x y]) = .error .exc := by
  obtain ⟨L, hg, _⟩ := h.par
  obtain ⟨t, h1, l, h2, h3⟩ := cmpDbg_sem h hops
  refine Tab.run_one_error _ h1 (step_insert_error ?_)
  refine ins_reject L (fun _ => Nat.lt_irrefl _) ?_ depth t l x h2 hx (.inl hg) (h3.none.mp hnew)
  intro s d cont b q hd ⟨hR, hdv⟩ hb hq hf hvw
  have hvw : d.vw = vw := hvw
  have hS := h.ok.hash
  have h3 : 3 ≤ kw := by cases hk <;> exact hS.1
  obtain ⟨hi1, hi2⟩ := ini_bounds (I := 16) h3 (by omega)
  obtain ⟨h4, h8, h9⟩ := HashKind.dbgHashOK (maxE := 255) (cl := 1) hS hi1 hi2 (by omega) (by omega)
  have hO : CmpDbgOK (cmpDbgCfg v hk kbits) kw (hk.lo kw 64) (hk.width kw - 1) := ⟨h.ok.stor, dvd8 h.ktype, h.kw_le, h8⟩
  have hB := hR.bkt b hb
  have hlt : (cont b).length < 255 := by
    simp only [cmpDbgMap, CmpDbgCfg.ops, hR.get hb, ok_bind, pure_eq_ok, Except.ok.injEq, beq_eq_false_iff_ne] at hf
    have := hB.base.le
    have := hB.base.size
    omega
  simp only [cmpDbgMap, CmpDbgCfg.ops, hR.get hb, ok_bind, hB.push_wide hO hd hR.dim hb hlt hq (by rw [hvw]; exact hy) h64, error_bind]

example : Tab.run cmpDbgEx (Tab.new cmpDbgEx 11 13) (cmpExOps ++ [.insert 5 (2 ^ 13)]) = .error .exc :=
  C80_compact_debug_insert_wide cmpDbgExOK cmpDbgExOps_valid (show 5 < 2 ^ 11 by decide) (Nat.le_refl _) (by decide) (by decide +kernel)

/-- **C80** (keys): with a bijective hash function a debug build throws when a key above `max_key()` is inserted. -/
theorem C80_compact_debug_large_key (h : CmpDbgTabOK v hk kbits kw vw) (hbij : hk ≠ .splitMix) {ops : List MapOp}
    (hops : ∀ op ∈ ops, CmpDbgValid hk kw vw op) {x : Nat} (hx : 2 ^ kw ≤ x) (y : Nat) :
    Tab.run (cmpDbg v hk kbits) (Tab.new (cmpDbg v hk kbits) kw vw) (ops ++ [.insert x y]) = .error .exc := by
  obtain ⟨L, hg, _⟩ := h.par
  obtain ⟨t, h1, l, h2, h3⟩ := cmpDbg_sem h hops
  have hkw : 3 ≤ kw := by have := h.ok.hash; cases hk <;> exact this.1
  exact Tab.run_one_error _ h1 (step_insert_error (ins_bad_key L h2
    (fun tb => dbgMapping_exc hbij (show 1 ≤ kw by omega) L.kw_le hx) 64 y))

example : Tab.run cmpDbgEx (Tab.new cmpDbgEx 11 13) (cmpExOps ++ [.insert 2048 1]) = .error .exc :=
  C80_compact_debug_large_key cmpDbgExOK (by simp) cmpDbgExOps_valid (show 2 ^ 11 ≤ 2048 by decide) 1

/-- **C80** (assignment): assigning a value of more than `value_width()` bits goes unnoticed even in a debug build, but the next
access to the entry throws. -/
theorem C80_compact_debug_assign_wide (h : CmpDbgTabOK v hk kbits kw vw) {ops : List MapOp}
    (hops : ∀ op ∈ ops, CmpDbgValid hk kw vw op) {x y : Nat} (hx : x < 2 ^ kw) (hy : 2 ^ vw ≤ y) (h64 : y < 2 ^ 64) :
    (∃ r, Tab.run (cmpDbg v hk kbits) (Tab.new (cmpDbg v hk kbits) kw vw) (ops ++ [.assign x y]) = .ok r) ∧
      Tab.run (cmpDbg v hk kbits) (Tab.new (cmpDbg v hk kbits) kw vw) (ops ++ [.assign x y] ++ [.get x]) = .error .exc := by
  obtain ⟨L, hg, _⟩ := h.par
  obtain ⟨t, h1, l, h2, h3⟩ := cmpDbg_sem h hops
  obtain ⟨t', n, z, l', c, o, full, a1, _, _, hl, hloc, _⟩ := h2.insert_abs L hg h3 hx (v := 0)
    (show fitNormO (fun w v => v % 2 ^ w) vw 0 = fitNorm (fun w v => v % 2 ^ w) vw 0 from fit_iff.mpr (Nat.two_pow_pos _))
  have a1' : t.subscript (cmpDbg v hk kbits) x = .ok (t', n) := a1
  have ho : o = [] := hl.orep.1
  subst ho
  rcases hloc with ⟨q, b, i, hi, rfl, hb, hm, hc, hk'⟩ | ⟨p, _, hp⟩
  rotate_left
  · simp at hp
  have hbc := hl.bc L
  have htb := hl.tb_pos L
  have hvw : (t'.dim (cmpDbg v hk kbits)).vw = vw := hl.tvw
  obtain ⟨hR, _⟩ := hl.rep
  have hd := hl.good L
  have hS := h.ok.hash
  have h3 : 3 ≤ kw := by cases hk <;> exact hS.1
  obtain ⟨hi1, hi2⟩ := ini_bounds (I := 16) h3 (by omega)
  obtain ⟨h4, h8, h9⟩ := HashKind.dbgHashOK (maxE := 255) (cl := 1) hS hi1 hi2 (by omega) (by omega)
  have hO : CmpDbgOK (cmpDbgCfg v hk kbits) kw (hk.lo kw 64) (hk.width kw - 1) := ⟨h.ok.stor, dvd8 h.ktype, h.kw_le, h8⟩
  have hB := hR.bkt b hb
  obtain ⟨w1, w2⟩ := cmpWidth_ok hO hd hR.dim
  have hqk : (t'.dim (cmpDbg v hk kbits)).qw ≤ kbits := by
    have e1 : (t'.dim (cmpDbg v hk kbits)).qw ≤ (t'.dim (cmpDbg v hk kbits)).kw := hd.qw_le
    have e2 : (t'.dim (cmpDbg v hk kbits)).kw = kw := hR.dim.2.1
    have := h.kw_le; omega
  obtain ⟨y', e1, e2, e3, e4⟩ := hB.writeValue_wide (c := cmpDbgCfg v hk kbits) h.ok.stor hd.qw_pos hqk hd.vw_pos hd.vw_le w2 hi
    (by rw [hvw]; exact hy) h64
  have hstep : t.step (cmpDbg v hk kbits) (.assign x y) = .ok ({ t' with store := t'.store.set b y' }, .none) := by
    have hw : (cmpDbg v hk kbits).ops.writeValue t'.store (t'.dim (cmpDbg v hk kbits)) b i y = .ok (t'.store.set b y') := by
      show (t'.store.get b >>= fun x => _) = _
      rw [hR.get hb, ok_bind]
      simp only [e1, ok_bind, pure_eq_ok]
    simp only [Tab.step, a1', ok_bind, Tab.writeValue, hbc, if_neg (show ¬ b = 2 ^ t'.tb by omega), ddcheck_ok hb, hw, pure_eq_ok]
  have hrun : Tab.run (cmpDbg v hk kbits) (Tab.new (cmpDbg v hk kbits) kw vw) (ops ++ [.assign x y]) =
      .ok ({ t' with store := t'.store.set b y' }, FMap.empty.run (fun v => v % 2 ^ vw) ops ++ [.none]) := by
    rw [Tab.run_append _ _ _ h1]
    simp only [Tab.run, hstep, ok_bind, pure_eq_ok]
  refine ⟨⟨_, hrun⟩, Tab.run_one_error _ hrun ?_⟩
  have hq : q < 2 ^ (t'.dim (cmpDbg v hk kbits)).qw := by
    show q < 2 ^ (t'.hash (cmpDbg v hk kbits)).remainderWidth t'.tb
    rw [hl.hash]; exact (invKey_of_map (hl.map_ok L) hk' hm).2.2.1
  have hpos : posOf ((c b).map Prod.fst) q = i := by
    have hi' : i < ((c b).map Prod.fst).length := by simpa using hi
    have hq' : ((c b).map Prod.fst)[i] = q := by simp [hc]
    unfold posOf
    rw [if_pos (by rw [← hq']; exact List.getElem_mem hi'), ← hq']
    exact (hl.cok.nodup b hb).idxOf_getElem i hi'
  have hloc := L.store.locate _ _ _ _ _ hd hl.rep hb hq
  rw [hpos] at hloc
  have hsz : (t'.store.bkt b).base.size = (c b).length := hB.base.size
  have hget : (t'.store.set b y').get b = .ok y' := by
    have : b < t'.store.n := by rw [hR.n]; exact hb
    simp only [CmpDbg.get, CmpDbg.set, if_pos this, upd_same]
  have hloc' : (cmpDbg v hk kbits).ops.locate (t'.store.set b y') (t'.dim (cmpDbg v hk kbits)) b q = .ok i := by
    rw [← hloc]
    show (dbgWidth _ _ >>= fun _ => _) = (dbgWidth _ _ >>= fun _ => _)
    simp only [hget, hR.get hb, ok_bind, e2, hsz, e4]
  obtain ⟨t2, ht2⟩ : ∃ t2 : Tab CmpDbg Unit, t2 = { t' with store := t'.store.set b y' } := ⟨_, rfl⟩
  have k1 : t2.tb = t'.tb := by rw [ht2]
  have k2 : t2.kw = kw := by rw [ht2]; exact hl.tkw
  have k3 : t2.store = t'.store.set b y' := by rw [ht2]
  have k4 : t2.dim (cmpDbg v hk kbits) = t'.dim (cmpDbg v hk kbits) := by rw [ht2]; rfl
  have k5 : (t2.hash (cmpDbg v hk kbits)).map x t2.tb = .ok (q, b) := by rw [ht2]; rw [← hl.hash] at hm; exact hm
  have k6 : t2.checkMap (cmpDbg v hk kbits) x q b = .ok () := by
    rw [ht2]; exact checkMap_ok (by rw [show Tab.kw { t' with store := t'.store.set b y' } = _ from hl.tkw]
                                    exact (invKey_of_map (hl.map_ok L) hk' hm).2.2.2)
  have k7 : t2.bucketCount = 2 ^ t'.tb := by rw [ht2]; exact hbc
  rw [← ht2]
  have hins : Tab.findOrInsert (cmpDbg v hk kbits) (64 + 1) t2 x 0 = .ok (t2, ⟨b, i⟩) := by
    have hlen := L.store.len _ _ _ _ hd hl.rep hb
    unfold Tab.findOrInsert
    rw [if_neg (by omega), ok_bind, ddcheck_ok (show 1 < t2.kw by omega), ok_bind]
    simp only [k5, ok_bind, k6, k3, k4, hloc']
    rw [if_pos (show i ≠ NPOS by omega), pure_eq_ok]
  have hins' : t2.subscript (cmpDbg v hk kbits) x = .ok (t2, ⟨b, i⟩) := hins
  have hval : t2.valueAt (cmpDbg v hk kbits) ⟨b, i⟩ = .error .exc := by
    have hiv : t2.invalid (cmpDbg v hk kbits) ⟨b, i⟩ = .ok false := by
      have hsize : (cmpDbg v hk kbits).ops.size t2.store (t2.dim (cmpDbg v hk kbits)) b = .ok (c b).length := by
        show ((t2.store.get b) >>= fun x => _) = _
        rw [k3, hget, ok_bind, e2]; rfl
      unfold Tab.invalid
      rw [if_neg (fun h => absurd h.1 (Nat.lt_irrefl 0)), if_neg (show ¬ t2.bucketCount ≤ b by omega)]
      simp only [hsize, ok_bind, pure_eq_ok, decide_eq_false (show ¬ (c b).length ≤ i by omega)]
    have hv : (cmpDbg v hk kbits).ops.valueAt t2.store (t2.dim (cmpDbg v hk kbits)) b i = .error .exc := by
      show ((t2.store.get b) >>= fun x => _) = _
      rw [k3, k4, hget, ok_bind]; exact e3
    unfold Tab.valueAt
    rw [checkValid_ok hiv, ok_bind, if_neg (fun h => absurd h.1 (Nat.lt_irrefl 0)), if_neg (show ¬ b = t2.bucketCount by omega),
      ddcheck_ok (show b < t2.bucketCount by omega), ok_bind, hv]
  simp only [Tab.step, hins', ok_bind, hval, error_bind]

example : (∃ r, Tab.run cmpDbgEx (Tab.new cmpDbgEx 11 13) (cmpExOps ++ [.assign 74 8192]) = .ok r) ∧
    Tab.run cmpDbgEx (Tab.new cmpDbgEx 11 13) (cmpExOps ++ [.assign 74 8192] ++ [.get 74]) = .error .exc :=
  C80_compact_debug_assign_wide cmpDbgExOK cmpDbgExOps_valid (show 74 < 2 ^ 11 by decide) (show 2 ^ 13 ≤ 8192 by decide) (by decide)

end SC
