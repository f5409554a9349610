import Verif.Table.Run
/-! # The same table class with another overflow table -/
namespace SC

variable {S O O' : Type}

/-- the template argument `overflow_t` is replaced -/
def Cfg.setOv (g : Cfg S O) (ov : OverflowOps O') : Cfg S O' where
  ops := g.ops
  ov := ov
  hash := g.hash
  initBuckets := g.initBuckets
  initBpg := g.initBpg
  rehashBpg := g.rehashBpg
  noStore := g.noStore
  debug := g.debug
  stale := g.stale
  tally := g.tally

/-- parameters of the correctness argument -/
def Par.setOv (P : Par S O) (RepO : O' → Nat → List (Nat × Nat × Nat) → (Nat → Bool) → Prop) : Par S O' where
  Rep := P.Rep
  RepO := RepO
  norm := P.norm
  normO := P.normO
  maxE := P.maxE
  cl := P.cl
  W := P.W
  kw := P.kw
  vw := P.vw
  lo := P.lo
  hi := P.hi
  ini := P.ini
  grow := P.grow
  one := P.one

/-- nothing else is demanded of a table class than that its overflow table be correct -/
theorem Laws.setOv {g : Cfg S O} {P : Par S O} (L : Laws g P) {ov : OverflowOps O'}
    {RepO : O' → Nat → List (Nat × Nat × Nat) → (Nat → Bool) → Prop}
    (h : LawfulOverflow ov P.normO RepO (fun v => P.normO v = P.norm P.vw v)) : Laws (g.setOv ov) (P.setOv RepO) where
  store := L.store
  ovf := h
  fresh := L.fresh
  never := L.never
  kw_le := L.kw_le
  vw_pos := L.vw_pos
  vw_le := L.vw_le
  ibpg_pos := L.ibpg_pos
  ibpg_le := L.ibpg_le
  rbpg_pos := L.rbpg_pos
  rbpg_le := L.rbpg_le
  norm_idem := L.norm_idem
  normO_norm := L.normO_norm
  lo_pos := L.lo_pos
  hi_lt := L.hi_lt
  mapping := L.mapping
  qw_le := L.qw_le
  init := L.init
  grow_le := L.grow_le
  room := L.room

end SC
