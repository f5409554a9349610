import Verif.Table.Keep
import Verif.Bucket.VarwidthLemmas
/-!
# The memory of a bucket
-/
namespace SC

/-- bits of the block of a bucket that is an array of cells of `s` bits; 0 for the null pointer -/
def cellBits (s : Nat) : PlainB → Nat
  | none => 0
  | some cs => s * cs.length

/-- bits of the block of a bucket that is a bit array; 0 for the null pointer -/
def blockBits : VarB → Nat
  | none => 0
  | some m => m.alloc

/-- The bucket classes with the size of their memory: `bits b` is the size of the block of `b` in bits, `need n w` the
size of a block for `n` entries of width `w`: for `varwidth_bucket`, the least number of words of type `internal_t`.  `ex` is set for the
classes whose `resize` always allocates a new block.  Entries of up to `W` bits are stored completely. -/
inductive BucketMem : (B : Type) → BucketOps B → (W : Nat) → (bits : B → Nat) → (need : Nat → Nat → Nat) → (ex : Bool) → Prop
  | plain (s : Nat) : BucketMem PlainB (plainOps s) s (cellBits s) (fun n _ => s * n) true
  | class (s : Nat) : BucketMem PlainB (classOps s) s (cellBits s) (fun n _ => s * n) true
  | avx (s : Nat) : BucketMem PlainB (avxOps s) s (cellBits s) (fun n _ => s * n) true
  | varwidth (c : VarCfg) (h : 0 < c.sb) : BucketMem VarB (varOps c) 64 blockBits (fun n w => (n * w + c.sb - 1) / c.sb * c.sb) false
  | null : BucketMem Unit nullOps 0 (fun _ => 0) (fun _ _ => 0) true

/-- how the functions of a bucket change the size of its memory -/
structure Sized {B : Type} (ops : BucketOps B) (bits : B → Nat) (need : Nat → Nat → Nat) (ex : Bool) : Prop where
  empty : bits ops.empty = 0
  clear : ∀ b, bits (ops.clear b) = 0
  init : ∀ len w, Post (ops.init len w) (fun b => bits b = need len w)
  resize : ∀ b old new w, Post (ops.resize b old new w)
    (fun b' => bits b' = need new w ∨ ex = false ∧ bits b' = bits b ∧ need new w ≤ need old w)
  write : ∀ b i x w, Post (ops.write b i x w) (fun b' => bits b' = bits b)
  erase : ∀ b i n w, Post (ops.erase b i n w) (fun b' => bits b' = bits b)
  mono : ∀ {n n' w w'}, n ≤ n' → w ≤ w' → need n w ≤ need n' w'
  flat : ex = true → ∀ n w w', need n w = need n w'

theorem cellWrite_bits {s : Nat} (b : PlainB) (i x : Nat) : Post (cellWrite b i x) (fun b' => cellBits s b' = cellBits s b) := by
  cases b with
  | none => exact Post.error
  | some cs => exact Post.ite (fun _ => Post.ok (by simp [cellBits])) (fun _ => Post.error)

theorem plainEraseLoop_bits {s : Nat} : ∀ (n : Nat) (b : PlainB) (i : Nat),
    Post (plainEraseLoop b i n) (fun b' => cellBits s b' = cellBits s b) := by
  intro n
  induction n with
  | zero => intro b i; exact Post.ok rfl
  | succ n ih =>
    intro b i
    refine Post.skip fun x => ?_
    exact Post.bind (cellWrite_bits b (i - 1) x) fun b' h => (ih b' (i + 1)).mono fun b'' h' => h'.trans h

theorem sized_plain (s : Nat) : Sized (plainOps s) (cellBits s) (fun n _ => s * n) true where
  empty := rfl
  clear _ := rfl
  init len _ := Post.ok (by simp [cellBits])
  resize b _ new _ := by
    cases b with
    | none => exact Post.ok (.inl (by simp [cellBits]))
    | some cs =>
      refine Post.ok (.inl ?_)
      simp only [cellBits, List.length_append, List.length_take, List.length_replicate]
      congr 1; omega
  write b i x _ := cellWrite_bits b i _
  erase b i n _ := plainEraseLoop_bits _ b _
  mono h _ := Nat.mul_le_mul_left _ h
  flat _ _ _ _ := rfl

theorem classResizeLoop_length (b : PlainB) : ∀ (n i : Nat) (dst : Cells),
    Post (classResizeLoop b dst i n) (fun cs => cs.length = dst.length) := by
  intro n
  induction n with
  | zero => intro i dst; exact Post.ok rfl
  | succ n ih =>
    intro i dst
    unfold classResizeLoop
    cases b with
    | none => exact Post.error
    | some cs =>
      simp only
      cases cs[i]? with
      | none => exact Post.error
      | some c =>
        refine Post.ite (fun _ => ?_) (fun _ => Post.error)
        exact (ih (i + 1) (dst.set i c)).mono fun cs h => by simpa using h

theorem sized_class (s : Nat) : Sized (classOps s) (cellBits s) (fun n _ => s * n) true :=
  { sized_plain s with
    resize := fun b old new _ => by
      refine Post.bind (classResizeLoop_length b old 0 _) fun cs h => ?_
      exact Post.pure (.inl (by simp only [cellBits, h, List.length_replicate])) }

theorem sized_avx (s : Nat) : Sized (avxOps s) (cellBits s) (fun n _ => s * n) true :=
  { sized_plain s with
    resize := fun b old new _ => by
      cases b with
      | none => exact Post.ite (fun _ => Post.ok (.inl (by simp [cellBits]))) (fun _ => Post.error)
      | some cs =>
        refine Post.skip fun bs => ?_
        exact Post.pure (.inl (by simp only [cellBits, bytesToCells_length])) }

theorem sized_null : Sized nullOps (fun _ => 0) (fun _ _ => 0) true where
  empty := rfl
  clear _ := rfl
  init _ _ := Post.ok rfl
  resize _ _ _ _ := Post.ok (.inl rfl)
  write _ _ _ _ := Post.ok rfl
  erase _ _ _ _ := Post.ok rfl
  mono _ _ := Nat.le_refl _
  flat _ _ _ _ := rfl

theorem writeInt_alloc (strict : Bool) (m : Buf) (base x off len : Nat) :
    Post (writeInt strict m base x off len) (fun m' => m'.alloc = m.alloc) := by
  refine Post.skip fun _ => ?_
  refine Post.ite (fun _ => Post.skip fun _ => Post.pure rfl) (fun _ => Post.pure rfl)

theorem writeIntAndMove_alloc (strict : Bool) (m : Buf) (x : Nat) (cur : Cursor) (len : Nat) :
    Post (writeIntAndMove strict m x cur len) (fun r => r.1.alloc = m.alloc) := by
  unfold writeIntAndMove
  exact Post.bind (writeInt_alloc _ _ _ _ _ _) fun m' h => Post.pure h

theorem moveChunks_alloc (strict : Bool) : ∀ (n : Nat) (m : Buf) (rd wr : Cursor),
    Post (moveChunks strict m rd wr n) (fun r => r.1.alloc = m.alloc) := by
  intro n
  induction n with
  | zero => intro m rd wr; exact Post.ok rfl
  | succ n ih =>
    intro m rd wr
    refine Post.skip fun ⟨v, rd⟩ => ?_
    refine Post.bind (writeIntAndMove_alloc _ _ _ _ _) fun ⟨m', wr⟩ h => ?_
    exact (ih m' rd wr).mono fun r h' => h'.trans h

theorem moveBits_alloc (strict : Bool) (m : Buf) (rd wr : Cursor) (n : Nat) :
    Post (moveBits strict m rd wr n) (fun m' => m'.alloc = m.alloc) := by
  unfold moveBits
  refine Post.bind (moveChunks_alloc _ _ _ _ _) fun ⟨m', rd, wr⟩ h => ?_
  refine Post.ite (fun _ => ?_) (fun _ => Post.pure h)
  refine Post.skip fun ⟨v, _⟩ => ?_
  exact Post.bind (writeIntAndMove_alloc _ _ _ _ _) fun ⟨m'', _⟩ h' => Post.pure (h'.trans h)

theorem sized_var (c : VarCfg) (hc : 0 < c.sb) :
    Sized (varOps c) blockBits (fun n w => (n * w + c.sb - 1) / c.sb * c.sb) false where
  empty := rfl
  clear _ := rfl
  init len w := Post.ok (by simp [blockBits, mallocBits, varBits, ceilDiv, Nat.mul_comm])
  resize b old new w := by
    refine Post.ite (fun _ => ?_) (fun h => ?_)
    · cases b with
      | none => exact Post.ok (.inl (by simp [blockBits, mallocBits, varBits, ceilDiv, Nat.mul_comm]))
      | some m => exact Post.ok (.inl (by simp [blockBits, reallocBits, varBits, ceilDiv, Nat.mul_comm]))
    · exact Post.ok (.inr ⟨rfl, rfl, Nat.mul_le_mul_right _ (Nat.le_of_not_lt h)⟩)
  write b i x w := by
    cases b with
    | none => exact Post.error
    | some m =>
      show Post (writeInt _ _ _ _ _ _ >>= fun m => _) _
      exact Post.bind (writeInt_alloc _ _ _ _ _ _) fun m' h => Post.pure h
  erase b i n w := by
    cases b with
    | none => exact Post.error
    | some m =>
      show Post (moveBits _ _ _ _ _ >>= fun m => _) _
      exact Post.bind (moveBits_alloc _ _ _ _ _) fun m' h => Post.pure h
  mono h1 h2 := by
    have := Nat.mul_le_mul h1 h2
    exact Nat.mul_le_mul_right _ (Nat.div_le_div_right (by omega))
  flat h := by cases h

theorem BucketMem.sized {B : Type} {ops : BucketOps B} {W : Nat} {bits : B → Nat} {need : Nat → Nat → Nat} {ex : Bool}
    (h : BucketMem B ops W bits need ex) : Sized ops bits need ex := by
  cases h with
  | plain => exact sized_plain _
  | «class» => exact sized_class _
  | avx => exact sized_avx _
  | varwidth c h => exact sized_var c h
  | null => exact sized_null

theorem BucketMem.fits {B : Type} {ops : BucketOps B} {W : Nat} {bits : B → Nat} {need : Nat → Nat → Nat} {ex : Bool}
    (h : BucketMem B ops W bits need ex) {n w : Nat} (hw : w ≤ W) : n * w ≤ need n w := by
  have hle := Nat.mul_le_mul_left n hw
  cases h with
  | plain => exact Nat.le_trans hle (Nat.le_of_eq (Nat.mul_comm _ _))
  | «class» => exact Nat.le_trans hle (Nat.le_of_eq (Nat.mul_comm _ _))
  | avx => exact Nat.le_trans hle (Nat.le_of_eq (Nat.mul_comm _ _))
  | varwidth c h =>
    have := ceilDiv_mul_ge (n * w) h
    unfold ceilDiv at this
    exact Nat.le_trans this (Nat.le_of_eq (Nat.mul_comm _ _))
  | null => exact hle

end SC
