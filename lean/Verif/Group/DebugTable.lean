import Verif.Group.DebugLemmas
import Verif.Group.Table
/-!
# `group_chaining_table` in a debug build
-/
namespace SC

/-- `group_chaining_table` in a debug build, without overflow table.  Its `reserve` has no assertion about the pointers it overwrites
(grp:967-986). -/
def grpDbgMap (c : GrpDbgCfg) : Cfg GrpDbg Unit where
  ops := c.ops
  ov := dummyOverflow
  hash := c.hash
  initBuckets := 8
  initBpg := 3
  rehashBpg := 64
  noStore := { n := 0, grp := fun _ => GroupDbg.none, cnt := 0, row := fun _ => PlainRow.none }
  debug := true
  stale := fun _ => false
  tally := true

/-- Template argument: hash function `hk`; `g` says which version of `select64` is used and what fresh memory contains. -/
def grpDbgCfg (g : GrpCfg) (hk : HashKind) : GrpDbgCfg where
  g := g
  hash := hk.dbgMapping
  remOK := hk.remOK

/-- The assertions of the constructor, grp:941-953, with those of the hash function -/
def grpDbgNew (hk : HashKind) (kw vw : Nat) : Res Unit := do
  hk.dbgNew kw
  ddcheck true (1 ≤ vw)
  ddcheck true (vw ≤ 64)
  ddcheck true (1 ≤ kw)
  ddcheck true (kw ≤ 64)

/-- the table with the `eraseAt` of another configuration -/
abbrev grpDbgMapE (c : GrpDbgCfg) (e : GrpCfg) : Cfg GrpDbg Unit := (grpDbgMap c).withErase (c.withG e).ops.eraseAt

/-- parameters of the correctness argument; `sp` says whether the packed arrays have a spare word -/
def grpDbgPar (sp : Bool) (c : GrpDbgCfg) (hk : HashKind) (kw vw : Nat) : Par GrpDbg Unit where
  Rep := fun s d cont => GrpDbgRep sp c kw (hk.lo kw 64) (hk.width kw - 1) s d cont ∧ d.vw = vw
  RepO := DummyRep
  norm := fitNorm (fun w v => v % 2 ^ w)
  normO := fitNormO (fun w v => v % 2 ^ w) vw
  maxE := 255
  cl := 64
  W := 64
  kw := kw
  vw := vw
  lo := hk.lo kw 64
  hi := hk.width kw - 1
  ini := grpIni kw
  grow := hk.grow kw 255 64

variable {g e : GrpCfg} {sp : Bool} {hk : HashKind} {kw vw : Nat}

theorem GrpOK.dbgStore (h : GrpOK hk kw vw) :
    GrpDbgOK (grpDbgCfg g hk) kw (hk.lo kw 64) (hk.width kw - 1) := by
  have hS := h.hash
  have h3 : 3 ≤ kw := by cases hk <;> exact hS.1
  obtain ⟨hi1, hi2⟩ := ini_bounds (I := 8) h3 (by omega)
  exact ⟨(HashKind.dbgHashOK (maxE := 255) (cl := 64) hS hi1 hi2 (by omega) (by omega)).2.1⟩

theorem GrpOK.dbgParE (h : GrpOK hk kw vw) (hsp : e.strict = true → sp = true) :
    Laws (grpDbgMapE (grpDbgCfg g hk) e) (grpDbgPar sp (grpDbgCfg g hk) hk kw vw) ∧ hk.grow kw 255 64 < 65 ∧
      grpDbgNew hk kw vw = .ok () := by
  have hS := h.hash
  have h3 : 3 ≤ kw := by cases hk <;> exact hS.1
  have h64 : kw ≤ 64 := by cases hk <;> (simp only [HashKind.Supports] at hS; omega)
  obtain ⟨hi1, hi2⟩ := ini_bounds (I := 8) h3 (by omega)
  obtain ⟨_, h5, h6, h7⟩ := HashKind.hashOK (maxE := 255) (cl := 64) hS hi1 hi2 (by omega) (by omega)
  obtain ⟨h4, h8, h9⟩ := HashKind.dbgHashOK (maxE := 255) (cl := 64) hS hi1 hi2 (by omega) (by omega)
  have L := lawful_grpDbg (h.dbgStore (g := g)) e hsp
  have hlt : ∀ x, fitNorm (fun w v => v % 2 ^ w) vw x < 2 ^ vw := fun x => Nat.mod_lt _ (Nat.two_pow_pos _)
  have hidem : ∀ x, fitNorm (fun w v => v % 2 ^ w) vw (fitNorm (fun w v => v % 2 ^ w) vw x) = fitNorm (fun w v => v % 2 ^ w) vw x := by
    intro x
    rw [fit_eq (hlt x)]
    exact Nat.mod_eq_of_lt (hlt x)
  refine ⟨laws_of ?_ (lawful_dummy _) h4 h.vw_pos h.vw_le
    (by simp [Cfg.withErase, grpDbgMap]) (by simp [Cfg.withErase, grpDbgMap]) (by simp [Cfg.withErase, grpDbgMap]) (by simp [Cfg.withErase, grpDbgMap]) hidem ?_
    (show 2 ≤ kw by omega) (by simp [Cfg.withErase, grpDbgMap]) rfl h5 h6, h7, ?_⟩
  · refine L.fit (fun v hv => hv) ?_
    rintro d ⟨d1, d2, d3, d4, d5⟩
    exact ⟨⟨d1, d2, d4, d5⟩, d3⟩
  · intro x; exact (fit_iff.mpr (hlt x)).trans (hidem x)
  · simp only [grpDbgNew, h9, ok_bind, ddcheck_ok h.vw_pos, ddcheck_ok h.vw_le, ddcheck_ok (show 1 ≤ kw by omega),
      ddcheck_ok h64]

theorem GrpOK.dbgPar (h : GrpOK hk kw vw) :
    Laws (grpDbgMap (grpDbgCfg g hk)) (grpDbgPar true (grpDbgCfg g hk) hk kw vw) ∧ hk.grow kw 255 64 < 65 ∧
      grpDbgNew hk kw vw = .ok () := by
  have := h.dbgParE (g := g) (e := g) (sp := true) (fun _ => rfl)
  have he : grpDbgMapE (grpDbgCfg g hk) g = grpDbgMap (grpDbgCfg g hk) := withErase_self
  rw [he] at this
  exact this

end SC
