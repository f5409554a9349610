import Verif.Compact.StoreLemmas
import Verif.Table.Observe
import Verif.Sep.Table
/-!
# `compact_chaining_map`
-/
namespace SC

/-- `compact_chaining_map<hash_mapping, storage_type>`; `c.sb` is the bit size of `storage_type`, cmp:67-100.  It has no overflow
table: `dummyOverflow` makes the corresponding branches of the common control flow unreachable. -/
def cmpMap (c : VarCfg) (hk : HashKind) : Cfg CmpStore Unit where
  ops := cmpOps c
  ov := dummyOverflow
  hash := hk.mapping
  initBuckets := 16
  initBpg := 1
  rehashBpg := 1
  noStore := { n := 0, bkt := fun _ => { stor := none, size := 0 } }

/-- A covered instantiation: `storage_type` has 8, 16, 32 or 64 bits (with less than 64, word accesses behind the end of a
block are taken to be harmless), supported key width, value width 1..64. -/
structure CmpOK (c : VarCfg) (hk : HashKind) (kw vw : Nat) : Prop where
  stor : c.good
  hash : hk.Supports kw 64 (sepIni kw)
  vw_pos : 1 ≤ vw
  vw_le : vw ≤ 64

/-- valid arguments; values are not restricted -/
abbrev CmpValid (hk : HashKind) (kw : Nat) (op : MapOp) : Prop :=
  ValidOp kw (hk.lo kw 64) (hk.width kw - 1) (fun _ => True) op

/-- parameters of the correctness argument -/
def cmpPar (c : VarCfg) (hk : HashKind) (kw vw : Nat) : Par CmpStore Unit where
  Rep := CmpRep c
  RepO := DummyRep
  norm := fun w v => v % 2 ^ w
  normO := fun v => v % 2 ^ vw
  maxE := 255
  cl := 1
  W := 64
  kw := kw
  vw := vw
  lo := hk.lo kw 64
  hi := hk.width kw - 1
  ini := sepIni kw
  grow := hk.grow kw 255 1

theorem CmpOK.covered {c : VarCfg} {hk : HashKind} {kw vw : Nat} (h : CmpOK c hk kw vw) :
    Covered (cmpMap c hk) (fun v => v % 2 ^ vw) (hk.lo kw 64) (hk.width kw - 1) kw vw (cmpPar c hk kw vw) := by
  have hS := h.hash
  have h3 : 3 ≤ kw := by cases hk <;> exact hS.1
  obtain ⟨hi1, hi2⟩ := ini_bounds (I := 16) h3 (by omega)
  obtain ⟨h4, h5, h6, h7⟩ := HashKind.hashOK (maxE := 255) (cl := 1) hS hi1 hi2 (by omega) (by omega)
  refine ⟨laws_of (lawful_cmp h.stor).weaken (lawful_dummy _) h4 h.vw_pos h.vw_le (by simp [cmpMap]) (by simp [cmpMap])
    (by simp [cmpMap]) (by simp [cmpMap]) (fun x => Nat.mod_mod _ _) (fun x => Nat.mod_mod _ _) (show 2 ≤ kw by omega)
    (by simp [cmpMap]) rfl h5 h6, h7, ?_, rfl, rfl, rfl, rfl, rfl, rfl, rfl⟩
  intro o n l full h
  exact h.1

end SC
