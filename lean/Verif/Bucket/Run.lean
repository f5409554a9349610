import Verif.Bucket.Ops
import Verif.Spec.Array
/-! # Driving a bucket through a sequence of calls -/
namespace SC
open Spec

/-- One call on a bucket `b` of which the caller knows that it holds `len` entries of width `w`. -/
def bucketStep {B : Type} (ops : BucketOps B) (w : Nat) (b : B) (len : Nat) : ArrOp → Res (B × Nat × Nat)
  | .grow n => do let b ← ops.resize b len n w; return (b, len, 0)
  | .push x => do let b ← ops.write b len x w; return (b, len + 1, 0)
  | .set i x => do let b ← ops.write b i x w; return (b, len, 0)
  | .erase i => do let b ← ops.erase b i len w; return (b, len - 1, 0)
  | .get i => do let v ← ops.read b i w; return (b, len, v)
  | .find x => do let r ← ops.find b x len w; return (b, len, r)

/-- the answers to a sequence of calls -/
def bucketRun {B : Type} (ops : BucketOps B) (w : Nat) (b : B) (len : Nat) : List ArrOp → Res (List Nat)
  | [] => .ok []
  | op :: rest => do
    let (b, len, r) ← bucketStep ops w b len op
    let rs ← bucketRun ops w b len rest
    return r :: rs

/-- construct a bucket, `initialize` it for `n0` entries and drive it -/
def bucketSession {B : Type} (ops : BucketOps B) (w n0 : Nat) (cmds : List ArrOp) : Res (List Nat) := do
  let b ← ops.init n0 w
  bucketRun ops w b 0 cmds

theorem firstFrom_eq (x : Nat) (ys : List Nat) : ∀ i, firstFrom x i ys = if x ∈ ys then i + ys.idxOf x else NPOS := by
  induction ys with
  | nil => intro i; simp [firstFrom]
  | cons y ys ih =>
    intro i
    unfold firstFrom
    by_cases hy : y = x
    · subst hy; simp
    · rw [if_neg hy, ih]
      by_cases hk : x ∈ ys
      · simp [hk, List.idxOf_cons, beq_eq_false_iff_ne.mpr hy]; omega
      · simp only [hk, if_false, List.mem_cons, or_false]
        rw [if_neg (fun e => hy e.symm)]

theorem posOf_eq_firstFrom (xs : List Nat) (x : Nat) : posOf xs x = firstFrom x 0 xs := by
  rw [firstFrom_eq]; simp [posOf]

theorem posOf_firstMatch (xs : List Nat) (x : Nat) : IsFirstMatch xs x (posOf xs x) := by
  unfold posOf
  by_cases h : x ∈ xs
  · rw [if_pos h]
    left
    have hi := List.idxOf_lt_length_iff.mpr h
    refine ⟨hi, by simp, ?_⟩
    intro j hj he
    have := List.not_of_lt_findIdx hj (p := (· == x))
    simp [he] at this
  · rw [if_neg h]; exact Or.inr ⟨h, rfl⟩

theorem bucketRun_refines {B : Type} {ops : BucketOps B} {norm : Nat → Nat → Nat} {Rep : B → Nat → Nat → List Nat → Prop}
    {spare : Bool} (L : LawfulBucket ops norm Rep spare) (F : LawfulFind ops norm Rep) {w bits : Nat} (hw : 1 ≤ w) (hw64 : w ≤ 64)
    (hn : ∀ x, norm w x = x % 2 ^ bits) (cmds : List ArrOp) :
    ∀ (b : B) (a : Arr), Rep b w a.cap a.xs → ∀ outs, a.run bits spare cmds = some outs →
      bucketRun ops w b a.xs.length cmds = .ok outs := by
  induction cmds with
  | nil => intro b a _ outs h; simpa [Arr.run, bucketRun] using h
  | cons op cmds ih =>
    intro b a hrep outs h
    simp only [Arr.run] at h
    cases hs : a.step bits spare op with
    | none => rw [hs] at h; simp at h
    | some p =>
      obtain ⟨a', r⟩ := p
      rw [hs] at h
      simp only at h
      cases hr : Arr.run bits spare a' cmds with
      | none => rw [hr] at h; simp at h
      | some rs =>
        rw [hr] at h
        simp only [Option.map_some, Option.some.injEq] at h
        subst h
        have key : ∃ b', bucketStep ops w b a.xs.length op = .ok (b', a'.xs.length, r) ∧ Rep b' w a'.cap a'.xs := by
          cases op with
          | grow n =>
            simp only [Arr.step] at hs
            split at hs
            · next hc =>
              simp only [Option.some.injEq, Prod.mk.injEq] at hs
              obtain ⟨rfl, rfl⟩ := hs
              obtain ⟨b', h1, h2⟩ := L.resize b w a.cap a.xs n hw hw64 hrep hc.1 hc.2
              exact ⟨b', by simp [bucketStep, h1], h2⟩
            · simp at hs
          | push x =>
            simp only [Arr.step] at hs
            split at hs
            · next hc =>
              simp only [Option.some.injEq, Prod.mk.injEq] at hs
              obtain ⟨rfl, rfl⟩ := hs
              obtain ⟨b', h1, h2⟩ := L.write_new b w a.cap a.xs x hw hw64 hrep hc trivial
              rw [hn] at h2
              exact ⟨b', by simp [bucketStep, h1], h2⟩
            · simp at hs
          | set i x =>
            simp only [Arr.step] at hs
            split at hs
            · next hc =>
              simp only [Option.some.injEq, Prod.mk.injEq] at hs
              obtain ⟨rfl, rfl⟩ := hs
              obtain ⟨b', h1, h2⟩ := L.write_old b w a.cap a.xs x i hw hw64 hrep hc trivial
              rw [hn] at h2
              exact ⟨b', by simp [bucketStep, h1], h2⟩
            · simp at hs
          | erase i =>
            simp only [Arr.step] at hs
            split at hs
            · next hc =>
              simp only [Option.some.injEq, Prod.mk.injEq] at hs
              obtain ⟨rfl, rfl⟩ := hs
              obtain ⟨b', h1, h2⟩ := L.erase b w a.cap a.xs i hw hw64 hrep hc.1 hc.2
              exact ⟨b', by simp [bucketStep, h1, List.length_eraseIdx_of_lt hc.1], h2⟩
            · simp at hs
          | get i =>
            simp only [Arr.step] at hs
            by_cases hi : i < a.xs.length
            · rw [List.getElem?_eq_getElem hi] at hs
              simp only [Option.map_some, Option.some.injEq, Prod.mk.injEq] at hs
              obtain ⟨rfl, rfl⟩ := hs
              exact ⟨b, by simp [bucketStep, L.read b w a.cap a.xs i hw hw64 hrep hi], hrep⟩
            · rw [List.getElem?_eq_none (by omega)] at hs; simp at hs
          | find x =>
            simp only [Arr.step] at hs
            split at hs
            · next hc =>
              simp only [Option.some.injEq, Prod.mk.injEq] at hs
              obtain ⟨rfl, rfl⟩ := hs
              have := F.find b w a.cap a.xs x hw hw64 hrep (by rw [hn]; exact Nat.mod_eq_of_lt hc)
              exact ⟨b, by simp [bucketStep, this, posOf_eq_firstFrom], hrep⟩
            · simp at hs
        obtain ⟨b', h1, h2⟩ := key
        simp only [bucketRun, h1, ok_bind, ih b' a' h2 rs hr, pure_eq_ok]

theorem bucketSession_refines {B : Type} {ops : BucketOps B} {norm : Nat → Nat → Nat} {Rep : B → Nat → Nat → List Nat → Prop}
    {spare : Bool} (L : LawfulBucket ops norm Rep spare) (F : LawfulFind ops norm Rep) {w bits : Nat} (hw : 1 ≤ w) (hw64 : w ≤ 64)
    (hn : ∀ x, norm w x = x % 2 ^ bits) (n0 : Nat) (cmds : List ArrOp) (outs : List Nat)
    (h : Arr.run bits spare ⟨[], n0⟩ cmds = some outs) : bucketSession ops w n0 cmds = .ok outs := by
  obtain ⟨b, h1, h2⟩ := L.init n0 w w hw (Nat.le_refl _) hw64
  unfold bucketSession
  rw [h1]
  exact bucketRun_refines L F hw hw64 hn cmds b ⟨[], n0⟩ h2 outs h

end SC
