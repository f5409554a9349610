import Verif.Bucket.Memory
import Verif.Sep.Table
/-! # The memory of the buckets of `separate_chaining_table` -/
namespace SC
variable {KB VB O : Type} {p : SepCfg KB VB} {hk : HashKind} {ov : OverflowOps O}

/-- The property `R` of a single bucket holds of a new bucket and is kept by the functions that change a bucket. -/
structure BucketKeeps (p : SepCfg KB VB) (er : Bool) (R : Dim → SepBucket KB VB → Prop) : Prop where
  new : ∀ d, R d { keys := p.kops.empty, vals := p.vops.empty, size := 0, cap := 0 }
  push : ∀ d x q v, R d x → x.size ≠ p.maxSize → Post (p.pushBucket d x q v) (R d)
  write : ∀ d x i v, R d x → Post (p.vops.write x.vals i v d.vw) (fun vs => R d { x with vals := vs })
  shrink : ∀ d x, R d x → Post (p.shrinkBucket d x) (R d)
  erase : er = true → ∀ d x q i, R d x → p.kops.find x.keys q x.size d.qw = .ok i → i ≠ NPOS → Post (p.eraseBucket d x i) (R d)

theorem SepStore.get_post (s : SepStore KB VB) (b : Nat) : Post (s.get b) (fun x => x = s.bkt b) :=
  Post.ite (fun _ => Post.ok rfl) (fun _ => Post.error)

theorem BucketKeeps.set {R : Dim → SepBucket KB VB → Prop} {d : Dim} {s : SepStore KB VB} (h : ∀ b, R d (s.bkt b)) (b : Nat)
    {x : SepBucket KB VB} (hx : R d x) : ∀ b', R d ((s.set b x).bkt b') := by
  intro b'
  unfold SepStore.set
  by_cases e : b' = b
  · subst e; simp only [upd_same]; exact hx
  · simp only [upd_other _ _ e]; exact h b'

theorem BucketKeeps.keeps {er : Bool} {R : Dim → SepBucket KB VB → Prop} (K : BucketKeeps p er R) :
    Keeps (sepTable p hk ov) er (fun s d => ∀ b, R d (s.bkt b)) where
  alloc d := Post.ok (fun _ => K.new d)
  push s d b q v h hf := by
    refine Post.bind (P := fun x => x = s.bkt b ∧ x.size ≠ p.maxSize) ?_ fun x hx => ?_
    · intro x hx
      refine ⟨SepStore.get_post s b x hx, ?_⟩
      have hf' : (s.get b >>= fun x => pure (x.size == p.maxSize)) = (.ok false : Res Bool) := hf
      rw [hx, ok_bind] at hf'
      simpa using Except.ok.inj hf'
    · obtain ⟨rfl, hx⟩ := hx
      exact Post.bind (K.push d _ q v (h b) hx) fun y hy => Post.pure (BucketKeeps.set h b hy)
  writeValue s d b i v h := by
    refine Post.bind (s.get_post b) fun x hx => ?_
    subst hx
    exact Post.bind (K.write d _ i v (h b)) fun y hy => Post.pure (BucketKeeps.set h b hy)
  shrink s d b h := by
    refine Post.bind (s.get_post b) fun x hx => ?_
    subst hx
    exact Post.bind (K.shrink d _ (h b)) fun y hy => Post.pure (BucketKeeps.set h b hy)
  eraseAt he s d b q i h hl hi := by
    refine Post.bind (P := fun x => x = s.bkt b ∧ p.kops.find x.keys q x.size d.qw = .ok i) ?_ fun x hx => ?_
    · intro x hx
      refine ⟨SepStore.get_post s b x hx, ?_⟩
      have hf' : (s.get b >>= fun x => p.kops.find x.keys q x.size d.qw) = (.ok i : Res Nat) := hl
      rwa [hx, ok_bind] at hf'
    · obtain ⟨rfl, hx⟩ := hx
      exact Post.bind (K.erase he d _ q i (h b) hx hi) fun y hy => Post.pure (BucketKeeps.set h b hy)

/-! ## The three ways an insertion changes a bucket -/

/-- Rule for `pushBucket`: the block of the bucket before the new entry is written. -/
theorem push_post {kbits : KB → Nat} {vbits : VB → Nat} {kneed vneed : Nat → Nat → Nat} {kex vex : Bool}
    (SK : Sized p.kops kbits kneed kex) (SV : Sized p.vops vbits vneed vex) {d : Dim} {x : SepBucket KB VB} {q v : Nat}
    {R : Nat → Nat → Nat → Nat → Prop}
    (first : x.size = 0 → R (kneed 1 d.kw) (vneed 1 d.vw) 1 1)
    (grow : x.size ≠ 0 → p.strat.needsResize x.cap ((x.size + 1) % 256) = true → ∀ kb vb,
      (kb = kneed (p.strat.sizeAfterIncrement ((x.size + 1) % 256)) d.qw ∨ kex = false ∧ kb = kbits x.keys ∧
        kneed (p.strat.sizeAfterIncrement ((x.size + 1) % 256)) d.qw ≤ kneed ((x.size + 1) % 256 - 1) d.qw) →
      (vb = vneed (p.strat.sizeAfterIncrement ((x.size + 1) % 256)) d.vw ∨ vex = false ∧ vb = vbits x.vals ∧
        vneed (p.strat.sizeAfterIncrement ((x.size + 1) % 256)) d.vw ≤ vneed ((x.size + 1) % 256 - 1) d.vw) →
      R kb vb ((x.size + 1) % 256) (p.strat.sizeAfterIncrement ((x.size + 1) % 256)))
    (stay : x.size ≠ 0 → p.strat.needsResize x.cap ((x.size + 1) % 256) = false →
      R (kbits x.keys) (vbits x.vals) ((x.size + 1) % 256) x.cap) :
    Post (p.pushBucket d x q v) (fun y => R (kbits y.keys) (vbits y.vals) y.size y.cap) := by
  unfold SepCfg.pushBucket
  refine Post.bind (P := fun y => R (kbits y.keys) (vbits y.vals) y.size y.cap) ?_ fun y hy => ?_
  · refine Post.ite (fun h0 => ?_) (fun h0 => Post.ite (fun hr => ?_) (fun hr => ?_))
    · refine Post.bind (SK.init 1 d.kw) fun ks hks => Post.bind (SV.init 1 d.vw) fun vs hvs => Post.pure ?_
      simp only [hks, hvs]
      exact first h0
    · refine Post.bind (SK.resize _ _ _ _) fun ks hks => Post.bind (SV.resize _ _ _ _) fun vs hvs => Post.pure ?_
      exact grow h0 hr _ _ hks hvs
    · exact Post.pure (stay h0 (by simpa using hr))
  · refine Post.bind (SK.write _ _ _ _) fun ks hks => Post.bind (SV.write _ _ _ _) fun vs hvs => Post.pure ?_
    simp only [hks, hvs]
    exact hy

/-- Rule for `shrinkBucket`. -/
theorem shrink_post {kbits : KB → Nat} {vbits : VB → Nat} {kneed vneed : Nat → Nat → Nat} {kex vex : Bool}
    (SK : Sized p.kops kbits kneed kex) (SV : Sized p.vops vbits vneed vex) {d : Dim} {x : SepBucket KB VB}
    {R : Nat → Nat → Nat → Nat → Prop}
    (stay : (x.size = 0 ∨ p.strat.canShrink x.cap x.size = false) → R (kbits x.keys) (vbits x.vals) x.size x.cap)
    (fit : x.size ≠ 0 → ∀ kb vb, (kb = kneed x.size d.qw ∨ kex = false ∧ kb = kbits x.keys) →
      (vb = vneed x.size d.vw ∨ vex = false ∧ vb = vbits x.vals) → R kb vb x.size x.size) :
    Post (p.shrinkBucket d x) (fun y => R (kbits y.keys) (vbits y.vals) y.size y.cap) := by
  unfold SepCfg.shrinkBucket
  refine Post.ite (fun h0 => Post.ok (stay (.inl h0))) (fun h0 => Post.ite (fun hc => ?_) (fun hc => ?_))
  · refine Post.bind (SK.resize _ _ _ _) fun ks hks => Post.bind (SV.resize _ _ _ _) fun vs hvs => Post.pure ?_
    exact fit h0 _ _ (hks.imp_right fun h => ⟨h.1, h.2.1⟩) (hvs.imp_right fun h => ⟨h.1, h.2.1⟩)
  · exact Post.ok (stay (.inr (by simpa using hc)))

/-! ## After any history: there is room for the stated capacity -/

/-- sizes of the blocks (`kb`, `vb`), size and capacity of a bucket fit together -/
structure MemOK (p : SepCfg KB VB) (kneed vneed : Nat → Nat → Nat) (ke ve : Bool) (d : Dim) (kb vb size c : Nat) : Prop where
  le : size ≤ p.maxSize
  zero : size = 0 → kb = 0 ∧ vb = 0 ∧ c = 0
  cap : size ≤ c
  keys : size ≠ 0 → kneed c d.qw ≤ kb
  vals : size ≠ 0 → vneed c d.vw ≤ vb
  kex : size ≠ 0 → ke = true → kb = kneed c d.qw
  vex : size ≠ 0 → ve = true → vb = vneed c d.vw

theorem maxSize_le (p : SepCfg KB VB) : p.maxSize ≤ 255 := by unfold SepCfg.maxSize; omega

variable {kbits : KB → Nat} {vbits : VB → Nat} {kneed vneed : Nat → Nat → Nat} {kex vex : Bool}

theorem keeps_memOK (SK : Sized p.kops kbits kneed kex) (SV : Sized p.vops vbits vneed vex) (hM : 1 ≤ p.maxSize)
    (hfind : ∀ b q w, p.kops.find b q 0 w = .ok NPOS) :
    BucketKeeps p true (fun d x => d.qw ≤ d.kw → MemOK p kneed vneed kex vex d (kbits x.keys) (vbits x.vals) x.size x.cap) where
  new d _ := {
    le := Nat.zero_le _
    zero := fun _ => ⟨SK.empty, SV.empty, rfl⟩
    cap := Nat.le_refl _
    keys := fun h => absurd rfl h
    vals := fun h => absurd rfl h
    kex := fun h => absurd rfl h
    vex := fun h => absurd rfl h }
  push d x q v h hmax y hy hqw := by
    have h := h hqw
    have hM' := maxSize_le p
    have hlt : x.size < p.maxSize := Nat.lt_of_le_of_ne h.le hmax
    have e : (x.size + 1) % 256 = x.size + 1 := Nat.mod_eq_of_lt (by omega)
    refine push_post SK SV (R := fun kb vb size cap => MemOK p kneed vneed kex vex d kb vb size cap) ?_ ?_ ?_ y hy
    · intro h0
      exact {
        le := hM
        zero := fun h => absurd h (by decide)
        cap := Nat.le_refl _
        keys := fun _ => SK.mono (Nat.le_refl _) hqw
        vals := fun _ => Nat.le_refl _
        kex := fun _ h => SK.flat h _ _ _
        vex := fun _ h => rfl }
    · rw [e]
      intro h0 _ kb vb hkb hvb
      have ha : x.size + 1 ≤ p.strat.sizeAfterIncrement (x.size + 1) := sizeAfterIncrement_ge (by omega) (by omega)
      rw [Nat.add_sub_cancel] at hkb hvb
      have k1 := h.keys h0
      have v1 := h.vals h0
      have k2 : kneed x.size d.qw ≤ kneed x.cap d.qw := SK.mono h.cap (Nat.le_refl _)
      have v2 : vneed x.size d.vw ≤ vneed x.cap d.vw := SV.mono h.cap (Nat.le_refl _)
      refine { le := hlt, zero := fun h => absurd h (by omega), cap := ha, keys := fun _ => ?_, vals := fun _ => ?_, kex := fun _ he => ?_, vex := fun _ he => ?_ }
      · rcases hkb with h | ⟨_, h1, h2⟩ <;> omega
      · rcases hvb with h | ⟨_, h1, h2⟩ <;> omega
      · rcases hkb with h | ⟨h1, _⟩
        · exact h
        · rw [he] at h1; cases h1
      · rcases hvb with h | ⟨h1, _⟩
        · exact h
        · rw [he] at h1; cases h1
    · rw [e]
      intro h0 hr
      have hc : x.size + 1 ≤ x.cap := by
        revert hr
        cases p.strat with
        | incremental => intro hr; cases hr
        | arbitrary =>
          intro hr
          simp only [Strategy.needsResize, decide_eq_false_iff_not] at hr
          omega
      exact { le := hlt, zero := fun h => absurd h (by omega), cap := hc, keys := fun _ => h.keys h0, vals := fun _ => h.vals h0, kex := fun _ => h.kex h0, vex := fun _ => h.vex h0 }
  write d x i v h vs hvs hqw := by
    have := SV.write _ _ _ _ vs hvs
    simp only [this]
    exact h hqw
  shrink d x h y hy hqw := by
    have h := h hqw
    refine shrink_post SK SV (R := fun kb vb size cap => MemOK p kneed vneed kex vex d kb vb size cap) (fun _ => h) ?_ y hy
    intro h0 kb vb hkb hvb
    have k1 := h.keys h0
    have v1 := h.vals h0
    have k2 : kneed x.size d.qw ≤ kneed x.cap d.qw := SK.mono h.cap (Nat.le_refl _)
    have v2 : vneed x.size d.vw ≤ vneed x.cap d.vw := SV.mono h.cap (Nat.le_refl _)
    refine { le := h.le, zero := fun h => absurd h h0, cap := Nat.le_refl _, keys := fun _ => ?_, vals := fun _ => ?_, kex := fun _ he => ?_, vex := fun _ he => ?_ }
    · rcases hkb with h | ⟨_, h1⟩ <;> omega
    · rcases hvb with h | ⟨_, h1⟩ <;> omega
    · rcases hkb with h | ⟨h1, _⟩
      · exact h
      · rw [he] at h1; cases h1
    · rcases hvb with h | ⟨h1, _⟩
      · exact h
      · rw [he] at h1; cases h1
  erase _ d x q i h hf hi y hy hqw := by
    have h := h hqw
    have h0 : x.size ≠ 0 := by
      intro h0
      rw [h0, hfind] at hf
      exact hi (Except.ok.inj hf).symm
    have hM' := maxSize_le p
    have hle := h.le
    have e : (x.size + 255) % 256 = x.size - 1 := by omega
    have main : Post (p.eraseBucket d x i) (fun y => MemOK p kneed vneed kex vex d (kbits y.keys) (vbits y.vals) y.size y.cap) := by
      unfold SepCfg.eraseBucket
      refine Post.bind (SK.erase _ _ _ _) fun ks hks => Post.bind (SV.erase _ _ _ _) fun vs hvs => Post.pure ?_
      simp only [e]
      by_cases h1 : x.size - 1 = 0
      · rw [if_pos h1]
        exact {
          le := Nat.zero_le _
          zero := fun _ => ⟨SK.clear _, SV.clear _, rfl⟩
          cap := Nat.le_refl _
          keys := fun h => absurd rfl h
          vals := fun h => absurd rfl h
          kex := fun h => absurd rfl h
          vex := fun h => absurd rfl h }
      · rw [if_neg h1]
        simp only [hks, hvs]
        exact { le := by omega, zero := fun h => absurd h h1, cap := by have := h.cap; omega, keys := fun _ => h.keys h0, vals := fun _ => h.vals h0, kex := fun _ => h.kex h0, vex := fun _ => h.vex h0 }
    exact main y hy

/-! ## Without erasures -/

/-- with `incremental_resize` the blocks are as small as the allocation of the first entry permits -/
structure MemTight (kneed vneed : Nat → Nat → Nat) (d : Dim) (kb vb size : Nat) : Prop where
  zero : size = 0 → kb = 0 ∧ vb = 0
  keys : size ≠ 0 → kneed size d.qw ≤ kb ∧ kb ≤ max (kneed size d.qw) (kneed 1 d.kw)
  vals : size ≠ 0 → vb = vneed size d.vw

theorem keeps_tight (SK : Sized p.kops kbits kneed kex) (SV : Sized p.vops vbits vneed vex) (hst : p.strat = .incremental) :
    BucketKeeps p false (fun d x => d.qw ≤ d.kw → x.size ≤ p.maxSize ∧ MemTight kneed vneed d (kbits x.keys) (vbits x.vals) x.size) where
  new d _ := ⟨Nat.zero_le _, fun _ => ⟨SK.empty, SV.empty⟩, fun h => absurd rfl h, fun h => absurd rfl h⟩
  push d x q v h hmax y hy hqw := by
    obtain ⟨hle, h⟩ := h hqw
    have hM' := maxSize_le p
    have hlt : x.size < p.maxSize := Nat.lt_of_le_of_ne hle hmax
    have e : (x.size + 1) % 256 = x.size + 1 := Nat.mod_eq_of_lt (by omega)
    refine push_post SK SV (R := fun kb vb size cap => size ≤ p.maxSize ∧ MemTight kneed vneed d kb vb size) ?_ ?_ ?_ y hy
    · intro h0
      refine ⟨by omega, fun h => absurd h (by decide), fun _ => ⟨SK.mono (Nat.le_refl _) hqw, by omega⟩, fun _ => rfl⟩
    · rw [e, hst]
      simp only [Strategy.sizeAfterIncrement, Nat.add_sub_cancel]
      intro h0 _ kb vb hkb hvb
      obtain ⟨k1, k2⟩ := h.keys h0
      have v1 := h.vals h0
      have k3 : kneed x.size d.qw ≤ kneed (x.size + 1) d.qw := SK.mono (by omega) (Nat.le_refl _)
      have v3 : vneed x.size d.vw ≤ vneed (x.size + 1) d.vw := SV.mono (by omega) (Nat.le_refl _)
      refine ⟨hlt, fun h => absurd h (by omega), fun _ => ?_, fun _ => ?_⟩
      · rcases hkb with h | ⟨_, h1, h2⟩ <;> omega
      · rcases hvb with h | ⟨_, h1, h2⟩ <;> omega
    · rw [hst]
      intro _ hr
      cases hr
  write d x i v h vs hvs hqw := by
    have := SV.write _ _ _ _ vs hvs
    simp only [this]
    exact h hqw
  shrink d x h y hy hqw := by
    obtain ⟨hle, h⟩ := h hqw
    refine shrink_post SK SV (R := fun kb vb size cap => size ≤ p.maxSize ∧ MemTight kneed vneed d kb vb size) (fun _ => ⟨hle, h⟩) ?_ y hy
    intro h0 kb vb hkb hvb
    obtain ⟨k1, k2⟩ := h.keys h0
    have v1 := h.vals h0
    refine ⟨hle, fun h => absurd h h0, fun _ => ?_, fun _ => ?_⟩
    · rcases hkb with h | ⟨_, h1⟩ <;> omega
    · rcases hvb with h | ⟨_, h1⟩ <;> omega
  erase h := by cases h

theorem arbResize_le (n : Nat) : arbResize n ≤ 2 * n := by
  unfold arbResize
  split <;> omega

/-- with both strategies at most half of the capacity is unused -/
theorem keeps_half (SK : Sized p.kops kbits kneed kex) (SV : Sized p.vops vbits vneed vex) :
    BucketKeeps p false (fun _ x => x.size ≤ p.maxSize ∧ x.cap ≤ 2 * x.size) where
  new d := ⟨Nat.zero_le _, Nat.le_refl _⟩
  push d x q v h hmax := by
    have hM' := maxSize_le p
    have hlt : x.size < p.maxSize := Nat.lt_of_le_of_ne h.1 hmax
    have e : (x.size + 1) % 256 = x.size + 1 := Nat.mod_eq_of_lt (by omega)
    refine push_post SK SV (R := fun _ _ size cap => size ≤ p.maxSize ∧ cap ≤ 2 * size) ?_ ?_ ?_
    · intro h0; omega
    · rw [e]
      intro _ _ _ _ _ _
      refine ⟨hlt, ?_⟩
      cases p.strat with
      | incremental => show x.size + 1 ≤ _; omega
      | arbitrary => exact Nat.le_trans (Nat.mod_le _ _) (arbResize_le _)
    · rw [e]
      intro _ _
      omega
  write d x i v h vs hvs := h
  shrink d x h := by
    refine shrink_post SK SV (R := fun _ _ size cap => size ≤ p.maxSize ∧ cap ≤ 2 * size) (fun _ => h) ?_
    intro h0 _ _ _ _
    exact ⟨h.1, by omega⟩
  erase h := by cases h

/-! ## `shrink_to_fit()` -/

theorem shrink_fit (SK : Sized p.kops kbits kneed kex) (SV : Sized p.vops vbits vneed vex) {d : Dim} {x : SepBucket KB VB}
    (h : MemOK p kneed vneed kex vex d (kbits x.keys) (vbits x.vals) x.size x.cap) :
    Post (p.shrinkBucket d x) (fun y => y.cap = y.size) := by
  refine shrink_post SK SV (R := fun _ _ size cap => cap = size) ?_ ?_
  · rintro (h0 | hc)
    · rw [h0]; exact (h.zero h0).2.2
    · have := h.cap
      revert hc
      cases p.strat with
      | incremental => intro hc; cases hc
      | arbitrary =>
        intro hc
        simp only [Strategy.canShrink, decide_eq_false_iff_not] at hc
        omega
  · intro _ _ _ _ _; rfl

/-- after `shrink_to_fit()` the capacity of every bucket is its size -/
theorem shrink_fold_fit (SK : Sized p.kops kbits kneed kex) (SV : Sized p.vops vbits vneed vex) {d : Dim}
    (K : ∀ x : SepBucket KB VB, MemOK p kneed vneed kex vex d (kbits x.keys) (vbits x.vals) x.size x.cap →
      Post (p.shrinkBucket d x) (fun y => MemOK p kneed vneed kex vex d (kbits y.keys) (vbits y.vals) y.size y.cap)) :
    ∀ (bs : List Nat) (t : Tab (SepStore KB VB) O), t.dim (sepTable p hk ov) = d →
    (∀ b, MemOK p kneed vneed kex vex d (kbits (t.store.bkt b).keys) (vbits (t.store.bkt b).vals) (t.store.bkt b).size (t.store.bkt b).cap) →
    Post (bs.foldlM (fun t b => do
      let s ← (sepTable p hk ov).ops.shrink t.store (t.dim (sepTable p hk ov)) b
      return { t with store := s }) t) (fun t' => t'.dim (sepTable p hk ov) = d ∧
        (∀ b, MemOK p kneed vneed kex vex d (kbits (t'.store.bkt b).keys) (vbits (t'.store.bkt b).vals) (t'.store.bkt b).size (t'.store.bkt b).cap) ∧
        ∀ b, b ∈ bs ∨ (t.store.bkt b).cap = (t.store.bkt b).size → (t'.store.bkt b).cap = (t'.store.bkt b).size) := by
  intro bs
  induction bs with
  | nil =>
    intro t hd h
    refine Post.pure ⟨hd, h, ?_⟩
    intro b hb
    simpa using hb
  | cons a bs ih =>
    intro t hd h
    rw [List.foldlM_cons]
    refine Post.bind (P := fun t' => t'.dim (sepTable p hk ov) = d ∧
        (∀ b, MemOK p kneed vneed kex vex d (kbits (t'.store.bkt b).keys) (vbits (t'.store.bkt b).vals) (t'.store.bkt b).size (t'.store.bkt b).cap) ∧
        ∀ b, b = a ∨ (t.store.bkt b).cap = (t.store.bkt b).size → (t'.store.bkt b).cap = (t'.store.bkt b).size) ?_ ?_
    · refine Post.bind (P := fun s => ∃ y, p.shrinkBucket d (t.store.bkt a) = .ok y ∧ s = t.store.set a y) ?_ ?_
      · refine Post.bind (t.store.get_post a) fun x hx => ?_
        subst hx
        rw [hd]
        exact Post.bind Post.self fun y hy => Post.pure ⟨y, hy, rfl⟩
      · rintro s ⟨y, hy, rfl⟩
        refine Post.pure ⟨hd, ?_, ?_⟩
        · intro b
          show MemOK p kneed vneed kex vex d (kbits (upd t.store.bkt a y b).keys) (vbits (upd t.store.bkt a y b).vals)
            (upd t.store.bkt a y b).size (upd t.store.bkt a y b).cap
          by_cases e : b = a
          · subst e; rw [upd_same]; exact K _ (h b) y hy
          · rw [upd_other _ _ e]; exact h b
        · intro b hb
          show (upd t.store.bkt a y b).cap = (upd t.store.bkt a y b).size
          by_cases e : b = a
          · subst e; rw [upd_same]; exact shrink_fit SK SV (h b) y hy
          · rw [upd_other _ _ e]
            exact hb.resolve_left e
    · rintro t1 ⟨h1, h2, h3⟩
      refine (ih t1 h1 h2).mono ?_
      rintro t' ⟨g1, g2, g3⟩
      refine ⟨g1, g2, ?_⟩
      intro b hb
      apply g3
      rcases hb with hb | hb
      · rcases List.mem_cons.mp hb with rfl | hb
        · exact .inr (h3 b (.inl rfl))
        · exact .inl hb
      · exact .inr (h3 b (.inr hb))

end SC
