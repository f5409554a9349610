import Verif.Compact.DebugLemmas
import Verif.Compact.Table
import Verif.Sep.DebugTable
/-!
# `compact_chaining_map` in a debug build
-/
namespace SC

/-- `compact_chaining_map` in a debug build.  Its `reserve` has no assertion about the pointers it overwrites (cmp:301-317). -/
def cmpDbgMap (c : CmpDbgCfg) : Cfg CmpDbg Unit where
  ops := c.ops
  ov := dummyOverflow
  hash := c.hash
  initBuckets := 16
  initBpg := 1
  rehashBpg := 1
  noStore := { n := 0, bkt := fun _ => CmpDbgBucket.none }
  debug := true
  stale := fun _ => false

/-- Template arguments: storage `v`, hash function `hk`, `key_type` of `kbits` bits. -/
def cmpDbgCfg (v : VarCfg) (hk : HashKind) (kbits : Nat) : CmpDbgCfg where
  v := v
  hash := hk.dbgMapping
  remOK := hk.remOK
  kbits := kbits

/-- The assertions of the constructor, cmp:212-222, with those of the hash function -/
def cmpDbgNew (hk : HashKind) (kbits kw vw : Nat) : Res Unit := do
  hk.dbgNew kw
  ddcheck true (1 ≤ vw)
  ddcheck true (vw ≤ 64)
  ddcheck true (1 ≤ kw)
  ddcheck true (kw ≤ kbits)

/-- parameters of the correctness argument -/
def cmpDbgPar (c : CmpDbgCfg) (hk : HashKind) (kw vw : Nat) : Par CmpDbg Unit where
  Rep := fun s d cont => CmpDbgRep c kw (hk.lo kw 64) (hk.width kw - 1) s d cont ∧ d.vw = vw
  RepO := DummyRep
  norm := fitNorm (fun w v => v % 2 ^ w)
  normO := fitNormO (fun w v => v % 2 ^ w) vw
  maxE := 255
  cl := 1
  W := 64
  kw := kw
  vw := vw
  lo := hk.lo kw 64
  hi := hk.width kw - 1
  ini := sepIni kw
  grow := hk.grow kw 255 1

/-- A covered instantiation in a debug build: that of a release build, and keys fit into their type. -/
structure CmpDbgTabOK (v : VarCfg) (hk : HashKind) (kbits kw vw : Nat) : Prop where
  ok : CmpOK v hk kw vw
  ktype : kbits = 8 ∨ kbits = 16 ∨ kbits = 32 ∨ kbits = 64
  kw_le : kw ≤ kbits

variable {v : VarCfg} {hk : HashKind} {kbits kw vw : Nat}

theorem CmpDbgTabOK.par (h : CmpDbgTabOK v hk kbits kw vw) :
    Laws (cmpDbgMap (cmpDbgCfg v hk kbits)) (cmpDbgPar (cmpDbgCfg v hk kbits) hk kw vw) ∧ hk.grow kw 255 1 < 65 ∧
      cmpDbgNew hk kbits kw vw = .ok () := by
  have hS := h.ok.hash
  have h3 : 3 ≤ kw := by cases hk <;> exact hS.1
  obtain ⟨hi1, hi2⟩ := ini_bounds (I := 16) h3 (by omega)
  obtain ⟨_, h5, h6, h7⟩ := HashKind.hashOK (maxE := 255) (cl := 1) hS hi1 hi2 (by omega) (by omega)
  obtain ⟨h4, h8, h9⟩ := HashKind.dbgHashOK (maxE := 255) (cl := 1) hS hi1 hi2 (by omega) (by omega)
  have hO : CmpDbgOK (cmpDbgCfg v hk kbits) kw (hk.lo kw 64) (hk.width kw - 1) := ⟨h.ok.stor, dvd8 h.ktype, h.kw_le, h8⟩
  have L := lawful_cmpDbg hO
  have hlt : ∀ x, fitNorm (fun w v => v % 2 ^ w) vw x < 2 ^ vw := fun x => Nat.mod_lt _ (Nat.two_pow_pos _)
  have hidem : ∀ x, fitNorm (fun w v => v % 2 ^ w) vw (fitNorm (fun w v => v % 2 ^ w) vw x) = fitNorm (fun w v => v % 2 ^ w) vw x := by
    intro x
    rw [fit_eq (hlt x)]
    exact Nat.mod_eq_of_lt (hlt x)
  refine ⟨laws_of ?_ (lawful_dummy _) h4 h.ok.vw_pos h.ok.vw_le
    (by simp [cmpDbgMap]) (by simp [cmpDbgMap]) (by simp [cmpDbgMap]) (by simp [cmpDbgMap]) hidem ?_
    (show 2 ≤ kw by omega) (by simp [cmpDbgMap]) rfl h5 h6, h7, ?_⟩
  · refine L.fit (fun v hv => hv) ?_
    rintro d ⟨d1, d2, d3, d4, d5⟩
    exact ⟨⟨d1, d2, d4, d5⟩, d3⟩
  · intro x; exact (fit_iff.mpr (hlt x)).trans (hidem x)
  · simp only [cmpDbgNew, h9, ok_bind, ddcheck_ok h.ok.vw_pos, ddcheck_ok h.ok.vw_le, ddcheck_ok (show 1 ≤ kw by omega),
      ddcheck_ok h.kw_le]

end SC
