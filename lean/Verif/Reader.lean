import Verif.Overflow.ArraySerial
import Verif.Sep.DebugSerial
import Verif.Group.DebugSerial
/-!
# Reading from the beginning of a file

A function that only reads the stream from the front cannot tell what follows the bytes that it reads: if a file is cut off, it either does not get
to the missing bytes and does the same, or one of its reads hits the end.
-/
namespace SC

/-- `f` reads bytes from the front of a stream; `g x r` is the result `x` with the bytes `r` that are left. With more bytes at the end, it does the same,
unless a read has hit the end of the stream (see `takeBytes`). -/
def Reader {α β : Type} (g : α → List Nat → β) (f : List Nat → Res β) : Prop := ∀ is ys,
  f is = .error .uninit ∨ (∃ e, f is = .error e ∧ f (is ++ ys) = .error e) ∨ ∃ x r, f is = .ok (g x r) ∧ f (is ++ ys) = .ok (g x (r ++ ys))

/-- result and rest -/
abbrev Reads {α : Type} (f : List Nat → Res (α × List Nat)) : Prop := Reader Prod.mk f

/-- result of two parts and rest -/
abbrev Reads2 {α β : Type} (f : List Nat → Res (α × β × List Nat)) : Prop := Reader (fun (x : α × β) r => (x.1, x.2, r)) f

variable {α β γ δ : Type} {g : α → List Nat → β} {g' : γ → List Nat → δ}

theorem Reader.bind {f : List Nat → Res β} {k : β → Res δ} (h : Reader g f) (hk : ∀ x, Reader g' (fun is => k (g x is))) : Reader g' (fun is => f is >>= k) := by
  intro is ys
  rcases h is ys with h | ⟨e, h1, h2⟩ | ⟨x, r, h1, h2⟩
  · left; simp only [h, error_bind]
  · right; left; exact ⟨e, by simp only [h1, error_bind], by simp only [h2, error_bind]⟩
  · simp only [h1, h2, ok_bind]
    exact hk x r ys

/-- a step that does not look at the stream -/
theorem Reader.lift {m : Res α} {k : α → List Nat → Res δ} (hk : ∀ x, Reader g' (k x)) : Reader g' (fun is => m >>= fun x => k x is) := by
  intro is ys
  cases m with
  | error e => right; left; exact ⟨e, rfl, rfl⟩
  | ok x => simp only [ok_bind]; exact hk x is ys

theorem Reader.ite {p : Prop} [Decidable p] {f f' : List Nat → Res δ} (h : Reader g' f) (h' : Reader g' f') : Reader g' (fun is => if p then f is else f' is) := by
  by_cases hp : p
  · simp only [if_pos hp]; exact h
  · simp only [if_neg hp]; exact h'

theorem Reads.ret (x : α) : Reads (fun is => .ok (x, is)) := fun is _ => .inr (.inr ⟨x, is, rfl, rfl⟩)

theorem Reads2.ret (x : α) (y : β) : Reads2 (fun is => .ok (x, y, is)) := fun is _ => .inr (.inr ⟨(x, y), is, rfl, rfl⟩)

theorem reads_takeBytes (n : Nat) : Reads (takeBytes n) := by
  intro is ys
  unfold takeBytes
  by_cases h : n ≤ is.length
  · right; right
    refine ⟨is.take n, is.drop n, by rw [if_pos h], ?_⟩
    rw [if_pos (by rw [List.length_append]; omega), List.take_append_of_le_length h, List.drop_append_of_le_length h]
  · left; rw [if_neg h]

/-- Of a file that is read to its end, no proper prefix can be read. -/
theorem Reads.truncated {f : List Nat → Res (α × List Nat)} (h : Reads f) {bytes : List Nat} {x : α} (hf : f bytes = .ok (x, [])) {n : Nat} (hn : n < bytes.length) :
    f (bytes.take n) = .error .uninit := by
  have he : bytes.take n ++ bytes.drop n = bytes := List.take_append_drop n bytes
  rcases h (bytes.take n) (bytes.drop n) with h1 | ⟨e, _, h2⟩ | ⟨y, r, _, h2⟩
  · exact h1
  · rw [he, hf] at h2; cases h2
  · rw [he, hf] at h2
    have h3 : [] = r ++ bytes.drop n := congrArg Prod.snd (Except.ok.inj h2)
    have := congrArg List.length h3
    rw [List.length_append, List.length_drop, List.length_nil] at this
    omega

/-- If two files are read to their ends, none is the beginning of the other. -/
theorem Reads.prefix {f : List Nat → Res (α × List Nat)} (h : Reads f) {a b : List Nat} {x y : α} (ha : f a = .ok (x, [])) (hb : f b = .ok (y, []))
    (hp : a <+: b) : a = b := by
  obtain ⟨c, rfl⟩ := hp
  cases c with
  | nil => rw [List.append_nil]
  | cons z c =>
    have := h.truncated hb (n := a.length) (by simp)
    rw [List.take_left, ha] at this
    cases this

/-! ## Buckets -/

theorem reads_plain (s : Nat) : ∀ n, Reads (plainDeserialize s n) := by
  intro n
  induction n with
  | zero => exact Reads.ret _
  | succ n ih =>
    show Reads (fun is => plainDeserialize s (n + 1) is)
    unfold plainDeserialize
    exact (reads_takeBytes _).bind fun _ => ih.bind fun _ => Reads.ret _

theorem reads_plainOps (s n w : Nat) : Reads ((plainOps s).deserialize n w) := (reads_plain s n).bind fun _ => Reads.ret _

theorem reads_var (c : VarCfg) (n w : Nat) : Reads (varDeserialize c n w) := (reads_takeBytes _).bind fun _ => Reads.ret _

theorem IsKeyBucket.reads {B : Type} {ops : BucketOps B} {W : Nat} (h : IsKeyBucket B ops W) (n w : Nat) : Reads (ops.deserialize n w) := by
  cases h with
  | plain _ => exact reads_plainOps _ n w
  | «class» _ => exact reads_plainOps _ n w
  | avx _ => exact reads_plainOps _ n w
  | varwidth _ _ => exact reads_var _ n w

theorem IsValueBucket.reads {B : Type} {ops : BucketOps B} {tr : Nat → Nat → Nat} (h : IsValueBucket B ops tr) (n w : Nat) : Reads (ops.deserialize n w) := by
  cases h with
  | plain _ => exact reads_plainOps _ n w
  | «class» _ => exact reads_plainOps _ n w
  | varwidth _ _ => exact reads_var _ n w
  | null => exact Reads.ret ()

theorem reads_dbg {B : Type} {c : DbgCfg B} (h : ∀ n w, Reads (c.ops.deserialize n w)) (n w : Nat) : Reads ((dbgOps c).deserialize n w) := by
  unfold dbgOps
  cases c.block with
  | some sb =>
    show Reads (fun s => do
      let (x, s) ← takeBytes 8 s
      let (y, s) ← takeBytes 8 s
      ddcheck true (n ≤ ofBytes y)
      ddcheck true (ceilDiv (n * w) sb ≤ ofBytes x)
      let (d, s) ← c.ops.deserialize n w s
      return ((⟨d, ofBytes y, ofBytes x⟩ : DbgB B), s))
    exact (reads_takeBytes _).bind fun _ => (reads_takeBytes _).bind fun _ => Reader.lift fun _ => Reader.lift fun _ => (h n w).bind fun _ => Reads.ret _
  | none =>
    show Reads (fun s => do
      let (y, s) ← takeBytes 8 s
      ddcheck true (n ≤ ofBytes y)
      let (d, s) ← c.ops.deserialize n w s
      return ((⟨d, n, 0⟩ : DbgB B), s))
    exact (reads_takeBytes _).bind fun _ => Reader.lift fun _ => (h n w).bind fun _ => Reads.ret _

theorem IsDbgKeyBucket.reads {B : Type} {k : DbgCfg B} {W : Nat} (h : IsDbgKeyBucket B k W) (n w : Nat) : Reads ((dbgOps k).deserialize n w) := by
  cases h with
  | plain _ => exact reads_dbg (fun n w => reads_plainOps _ n w) n w
  | «class» _ => exact reads_dbg (fun n w => reads_plainOps _ n w) n w
  | avx _ => exact reads_dbg (fun n w => reads_plainOps _ n w) n w
  | varwidth _ _ => exact reads_dbg (fun n w => reads_var _ n w) n w

theorem IsDbgValueBucket.reads {B : Type} {ops : BucketOps B} {null : B → Bool} {tr : Nat → Nat → Nat} {vbits : Nat} (h : IsDbgValueBucket B ops null tr vbits)
    (n w : Nat) : Reads (ops.deserialize n w) := by
  cases h with
  | plain _ => exact reads_dbg (fun n w => reads_plainOps _ n w) n w
  | «class» _ => exact reads_dbg (fun n w => reads_plainOps _ n w) n w
  | varwidth _ _ => exact reads_dbg (fun n w => reads_var _ n w) n w
  | null => exact Reads.ret ()

/-! ## Tables -/

variable {KB VB : Type}

theorem reads_sepBuckets {p : SepCfg KB VB} (hk : ∀ n w, Reads (p.kops.deserialize n w)) (hv : ∀ n w, Reads (p.vops.deserialize n w)) (d : Dim) :
    ∀ bs s, Reads (p.deserBuckets d s bs) := by
  intro bs
  induction bs with
  | nil => intro s; exact Reads.ret s
  | cons b bs ih =>
    intro s
    show Reads (fun is => p.deserBuckets d s (b :: bs) is)
    unfold SepCfg.deserBuckets
    exact Reader.lift fun x => Reader.ite (ih s) ((hk _ _).bind fun _ => (hv _ _).bind fun _ => ih _)

theorem reads_sep {p : SepCfg KB VB} (hk : ∀ n w, Reads (p.kops.deserialize n w)) (hv : ∀ n w, Reads (p.vops.deserialize n w)) (h : HashKind)
    (t : Tab (SepStore KB VB) Unit) : Reads (p.deserialize h t) := by
  unfold SepCfg.deserialize
  exact (reads_takeBytes _).bind fun _ => (reads_takeBytes _).bind fun _ => (reads_takeBytes _).bind fun _ => Reader.lift fun _ => Reader.lift fun _ =>
    (reads_takeBytes _).bind fun _ => (reads_takeBytes _).bind fun _ => (reads_sepBuckets hk hv _ _ _).bind fun _ => Reads.ret _

theorem reads_sepDbgBuckets {c : SepDbgCfg KB VB} (hk : ∀ n w, Reads (c.p.kops.deserialize n w)) (hv : ∀ n w, Reads (c.p.vops.deserialize n w)) (d : Dim) :
    ∀ bs s n, Reads2 (c.deserBuckets d s n bs) := by
  intro bs
  induction bs with
  | nil => intro s n; exact Reads2.ret s n
  | cons b bs ih =>
    intro s n
    show Reads2 (fun is => c.deserBuckets d s n (b :: bs) is)
    unfold SepDbgCfg.deserBuckets
    exact Reader.lift fun x => Reader.ite (ih s n) (Reader.lift fun _ => (hk _ _).bind fun _ => Reader.lift fun _ => (hv _ _).bind fun _ =>
      (reads_plainOps _ _ _).bind fun _ => Reader.lift fun _ => ih _ _)

theorem reads_sepDbg {c : SepDbgCfg KB VB} (hk : ∀ n w, Reads (c.p.kops.deserialize n w)) (hv : ∀ n w, Reads (c.p.vops.deserialize n w)) (h : HashKind)
    (t : Tab (SepDbg KB VB) Unit) : Reads (c.deserialize h t) := by
  unfold SepDbgCfg.deserialize
  exact (reads_takeBytes _).bind fun _ => (reads_takeBytes _).bind fun _ => Reader.lift fun _ => (reads_takeBytes _).bind fun _ => Reader.lift fun _ =>
    Reader.lift fun _ => Reader.lift fun _ => (reads_takeBytes _).bind fun _ => Reader.lift fun _ => (reads_takeBytes _).bind fun _ =>
    (reads_sepDbgBuckets hk hv _ _ _ _).bind fun _ => Reader.lift fun _ => Reads.ret _

theorem reads_core (c : GrpCfg) (w n : Nat) : Reads (coreDeserialize c w n) := (reads_takeBytes _).bind fun _ => Reads.ret _

theorem reads_border : ∀ n i w, Reads (borderRead i n w) := by
  intro n
  induction n with
  | zero => intro i w; exact Reads.ret w
  | succ n ih =>
    intro i w
    show Reads (fun is => borderRead i (n + 1) w is)
    unfold borderRead
    exact (reads_takeBytes _).bind fun _ => ih _ _

theorem reads_group (c : GrpCfg) (bpg qw vw : Nat) : Reads (Group.deserialize c bpg qw vw) := by
  unfold Group.deserialize
  exact (reads_takeBytes _).bind fun _ => Reader.ite (Reads.ret _) ((reads_border _ _ _).bind fun _ => (reads_core _ _ _).bind fun _ => (reads_core _ _ _).bind fun _ => Reads.ret _)

theorem reads_groups (c : GrpCfg) (d : Dim) : ∀ n j s, Reads (grpDeserGroups c d j n s) := by
  intro n
  induction n with
  | zero => intro j s; exact Reads.ret s
  | succ n ih =>
    intro j s
    show Reads (fun is => grpDeserGroups c d j (n + 1) s is)
    unfold grpDeserGroups
    exact Reader.lift fun _ => (reads_group _ _ _ _).bind fun _ => ih _ _

theorem reads_grp (c : GrpCfg) (hk : HashKind) (t : Tab GrpStore Unit) : Reads (grpDeserialize c hk t) := by
  unfold grpDeserialize
  exact (reads_takeBytes _).bind fun _ => (reads_takeBytes _).bind fun _ => (reads_takeBytes _).bind fun _ => (reads_takeBytes _).bind fun _ =>
    (reads_takeBytes _).bind fun _ => Reader.ite (Reads.ret _) (Reader.lift fun _ => Reader.lift fun _ => (reads_groups _ _ _ _ _).bind fun _ => Reads.ret _)

theorem reads_coreDbg (c : GrpCfg) (w n : Nat) : Reads (CoreDbg.deserialize c w n) := by
  unfold CoreDbg.deserialize
  exact (reads_takeBytes _).bind fun _ => Reader.lift fun _ => (reads_takeBytes _).bind fun _ => Reader.lift fun _ => (reads_takeBytes _).bind fun _ =>
    (reads_plain _ _).bind fun _ => Reader.lift fun _ => (reads_core _ _ _).bind fun _ => Reads.ret _

theorem reads_words : ∀ n, Reads (wordsRead n) := by
  intro n
  induction n with
  | zero => exact Reads.ret _
  | succ n ih =>
    show Reads (fun is => wordsRead (n + 1) is)
    unfold wordsRead
    exact (reads_takeBytes _).bind fun _ => ih.bind fun _ => Reads.ret _

theorem reads_groupDbg (c : GrpCfg) (x : GroupDbg) (bpg qw vw : Nat) : Reads (x.deserialize c bpg qw vw) := by
  unfold GroupDbg.deserialize
  exact (reads_takeBytes _).bind fun _ => (reads_words _).bind fun _ => (reads_takeBytes _).bind fun _ => (reads_takeBytes _).bind fun _ =>
    (reads_takeBytes _).bind fun _ => Reader.ite (Reads.ret _) ((reads_border _ _ _).bind fun _ => (reads_coreDbg _ _ _).bind fun _ => (reads_coreDbg _ _ _).bind fun _ =>
      Reads.ret _)

theorem reads_groupsDbg (c : GrpCfg) (d : Dim) : ∀ n j s, Reads (GrpDbg.deserGroups c d j n s) := by
  intro n
  induction n with
  | zero => intro j s; exact Reads.ret s
  | succ n ih =>
    intro j s
    show Reads (fun is => GrpDbg.deserGroups c d j (n + 1) s is)
    unfold GrpDbg.deserGroups
    exact Reader.lift fun _ => (reads_groupDbg _ _ _ _ _).bind fun _ => ih _ _

theorem reads_sizes : ∀ bs s, Reads (GrpDbg.deserSizes bs s) := by
  intro bs
  induction bs with
  | nil => intro s; exact Reads.ret s
  | cons b bs ih =>
    intro s
    show Reads (fun is => GrpDbg.deserSizes (b :: bs) s is)
    unfold GrpDbg.deserSizes
    exact Reader.lift fun _ => (reads_takeBytes _).bind fun _ => ih _

theorem reads_rows (c : GrpDbgCfg) (d : Dim) : ∀ bs s n, Reads2 (c.deserRows d s n bs) := by
  intro bs
  induction bs with
  | nil => intro s n; exact Reads2.ret s n
  | cons b bs ih =>
    intro s n
    show Reads2 (fun is => c.deserRows d s n (b :: bs) is)
    unfold GrpDbgCfg.deserRows
    exact Reader.lift fun x => Reader.ite (ih s n) ((reads_plain _ _).bind fun _ => (reads_plain _ _).bind fun _ => Reader.lift fun _ => Reader.lift fun _ => ih _ _)

theorem reads_grpDbg (c : GrpDbgCfg) (hk : HashKind) (t : Tab GrpDbg Unit) : Reads (c.deserialize hk t) := by
  unfold GrpDbgCfg.deserialize
  exact (reads_takeBytes _).bind fun _ => (reads_takeBytes _).bind fun _ => Reader.lift fun _ => (reads_takeBytes _).bind fun _ => (reads_takeBytes _).bind fun _ =>
    (reads_takeBytes _).bind fun _ => Reader.ite (Reads.ret _) (Reader.lift fun _ => Reader.lift fun _ => Reader.lift fun _ => Reader.lift fun _ => Reader.lift fun _ =>
      (reads_groupsDbg _ _ _ _ _).bind fun _ => (reads_sizes _ _).bind fun _ => Reader.lift fun _ => (reads_rows _ _ _ _ _).bind fun _ => Reader.lift fun _ => Reads.ret _)

theorem reads_array (c : ArrEnv) (o : ArrOv) : Reads (o.deserialize c) := by
  unfold ArrOv.deserialize
  exact (reads_takeBytes _).bind fun _ => (reads_plainOps _ _ _).bind fun _ => (reads_plainOps _ _ _).bind fun _ => Reads.ret _

end SC
