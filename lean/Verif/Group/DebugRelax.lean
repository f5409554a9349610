import Verif.Group.DebugSerial
/-!
# Erasing without checks in a debug build

If `eraseAt` succeeds although reads behind the end of an array are faults, it does the same if they are not.
-/
namespace SC

/-- wherever the first succeeds, the second does the same -/
def Ext {α : Type} (r r' : Res α) : Prop := ∀ x, r = .ok x → r' = .ok x

theorem Ext.rfl {α : Type} {r : Res α} : Ext r r := fun _ h => h

theorem Ext.bind {α β : Type} {r r' : Res α} {f f' : α → Res β} (h : Ext r r') (hf : ∀ x, Ext (f x) (f' x)) :
    Ext (r >>= f) (r' >>= f') := by
  intro y hy
  obtain ⟨x, h1, h2⟩ := bind_eq_ok hy
  rw [h x h1, ok_bind]
  exact hf x y h2

theorem Ext.same {α β : Type} {r : Res α} {f f' : α → Res β} (hf : ∀ x, Ext (f x) (f' x)) : Ext (r >>= f) (r >>= f') := Ext.rfl.bind hf

variable {c : GrpCfg}

theorem readRaw_ext (x : CoreDbg) (i w : Nat) : Ext (x.readRaw c i w) (x.readRaw c.flat i w) :=
  .same fun _ => .same fun _ => .same fun _ => .same fun _ => fun _ => readInt_relax

theorem coreRead_ext (x : CoreDbg) (i w : Nat) : Ext (x.read c i w) (x.read c.flat i w) :=
  .same fun _ => (readRaw_ext x i w).bind fun _ => .rfl

theorem verify_ext (x : CoreDbg) (w : Nat) : ∀ n i, Ext (x.verify c w i n) (x.verify c.flat w i n) := by
  intro n
  induction n with
  | zero => intro i; exact .rfl
  | succ n ih => intro i; exact .same fun _ => (coreRead_ext x i w).bind fun _ => .same fun _ => ih (i + 1)

theorem dbgErase_ext (x : CoreDbg) (idx w len : Nat) : Ext (x.erase c idx w len) (x.erase c.flat idx w len) :=
  .same fun _ => .same fun _ => .same fun _ => Ext.bind (fun _ => coreErase_relax) fun _ => .same fun _ => .same fun _ =>
    (verify_ext _ w _ 0).bind fun _ => .rfl

theorem groupDbgErase_ext (x : GroupDbg) (bpg g pos qw vw : Nat) : Ext (x.erase c bpg g pos qw vw) (x.erase c.flat bpg g pos qw vw) := by
  refine Ext.same fun start => Ext.same fun e => .same fun _ => (dbgErase_ext x.keys _ qw _).bind fun _ =>
    (dbgErase_ext x.vals _ vw _).bind fun _ => .same fun _ => .same fun r => ?_
  have : ∀ (y : GroupDbg) n i, y.checkEnds c i n = y.checkEnds c.flat i n := by
    intro y n
    induction n with
    | zero => intro i; rfl
    | succ n ih => intro i; simp only [GroupDbg.checkEnds, ih]; rfl
  obtain ⟨b, blen⟩ := r
  simp only [this]
  exact .rfl

variable {k : GrpDbgCfg}

theorem compare_ext (x : GroupDbg) (d : Dim) (r : PlainRow) (b i : Nat) :
    Ext (x.compare k d r b i) (x.compare (k.withG k.g.flat) d r b i) := by
  refine Ext.bind (.same fun _ => .same fun _ => coreRead_ext _ _ _) fun _ => .same fun _ => .same fun _ => .same fun _ => .same fun _ => ?_
  exact Ext.bind (.same fun _ => .same fun _ => coreRead_ext _ _ _) fun _ => .rfl

theorem compareAll_ext (x : GroupDbg) (d : Dim) (r : PlainRow) (b : Nat) : ∀ n i,
    Ext (x.compareAll k d r b i n) (x.compareAll (k.withG k.g.flat) d r b i n) := by
  intro n
  induction n with
  | zero => intro i; exact .rfl
  | succ n ih => intro i; exact (compare_ext x d r b i).bind fun _ => ih (i + 1)

theorem eraseAt_ext (s : GrpDbg) (d : Dim) (b i : Nat) : Ext (k.ops.eraseAt s d b i) ((k.withG k.g.flat).ops.eraseAt s d b i) := by
  refine Ext.same fun _ => .same fun _ => .same fun _ => .same fun x => .same fun _ => (compare_ext x d _ b i).bind fun _ => .same fun _ =>
    .same fun _ => .same fun _ => (groupDbgErase_ext x _ _ _ _ _).bind fun _ => .same fun _ => .same fun _ =>
    (compareAll_ext _ d _ b _ 0).bind fun _ => .rfl

theorem dbgEraseAt_relax (s : GrpDbg) (d : Dim) (b i : Nat) (r : GrpDbg) (h : k.ops.eraseAt s d b i = .ok r) :
    (k.withG k.g.flat).ops.eraseAt s d b i = .ok r := eraseAt_ext s d b i r h

theorem grpDbgMapE_self (h : k.g.strict = false) : grpDbgMapE k k.g.flat = grpDbgMap k := by
  have : k.withG k.g.flat = k := by rw [GrpCfg.flat_eq h]
  rw [grpDbgMapE, this]
  exact withErase_self

end SC
