import Verif.Table.Run
/-!
# Properties of the storage that all functions of a table keep

A property of the storage that is established by `alloc` and kept by the storage functions holds after every history.
Nothing is assumed about keys, values or the hash function; only runs that end without fault are considered.
-/
namespace SC

/-- if `r` returns normally, the result has the property `P` -/
def Post {α : Type} (r : Res α) (P : α → Prop) : Prop := ∀ a, r = .ok a → P a

section
variable {α β : Type}

theorem Post.ok {P : α → Prop} {a : α} (h : P a) : Post (.ok a) P := by
  intro b e; cases e; exact h

theorem Post.pure {P : α → Prop} {a : α} (h : P a) : Post (Pure.pure a : Res α) P := Post.ok h

theorem Post.error {P : α → Prop} {e : Fault} : Post (.error e : Res α) P := by
  intro b e; cases e

theorem Post.bind {r : Res α} {f : α → Res β} {P : α → Prop} {Q : β → Prop} (h1 : Post r P)
    (h2 : ∀ a, P a → Post (f a) Q) : Post (r >>= f) Q := by
  intro b e
  cases hr : r with
  | error x => rw [hr] at e; cases e
  | ok a => rw [hr, ok_bind] at e; exact h2 a (h1 a hr) b e

theorem Post.trivial {r : Res α} : Post r (fun _ => True) := fun _ _ => True.intro

theorem Post.self {r : Res α} : Post r (fun a => r = .ok a) := fun _ h => h

/-- nothing needs to be known of the first step -/
theorem Post.skip {r : Res α} {f : α → Res β} {Q : β → Prop} (h : ∀ a, Post (f a) Q) : Post (r >>= f) Q :=
  Post.bind Post.trivial (fun a _ => h a)

theorem Post.mono {r : Res α} {P Q : α → Prop} (h : Post r P) (hPQ : ∀ a, P a → Q a) : Post r Q :=
  fun a e => hPQ a (h a e)

theorem Post.ite {c : Prop} [Decidable c] {r s : Res α} {P : α → Prop} (h1 : c → Post r P) (h2 : ¬ c → Post s P) :
    Post (if c then r else s) P := by
  split
  · exact h1 ‹_›
  · exact h2 ‹_›

theorem Post.foldlM {f : α → β → Res α} {P : α → Prop} : ∀ {l : List β} {a : α}, P a →
    (∀ a, P a → ∀ b ∈ l, Post (f a b) P) → Post (l.foldlM f a) P := by
  intro l
  induction l with
  | nil => intro a h _; exact Post.ok h
  | cons b l ih =>
    intro a h hf
    rw [List.foldlM_cons]
    exact Post.bind (hf a h b (by simp)) (fun a' h' => ih h' (fun a h b hb => hf a h b (by simp [hb])))

end

variable {S O : Type}

/-- The property `Q` of storage and dimensions holds of new storage and is kept by the storage functions; by `erase` only
if `er` is set. -/
structure Keeps (g : Cfg S O) (er : Bool) (Q : S → Dim → Prop) : Prop where
  alloc : ∀ d, Post (g.ops.alloc d) (fun s => Q s d)
  push : ∀ s d b q v, Q s d → g.ops.full s d b = .ok false → Post (g.ops.push s d b q v) (fun s' => Q s' d)
  writeValue : ∀ s d b i v, Q s d → Post (g.ops.writeValue s d b i v) (fun s' => Q s' d)
  shrink : ∀ s d b, Q s d → Post (g.ops.shrink s d b) (fun s' => Q s' d)
  eraseAt : er = true → ∀ s d b q i, Q s d → g.ops.locate s d b q = .ok i → i ≠ NPOS →
    Post (g.ops.eraseAt s d b i) (fun s' => Q s' d)

/-- the table has no buckets or its storage has the property -/
def Tab.Has (g : Cfg S O) (Q : S → Dim → Prop) (t : Tab S O) : Prop := t.tb = 0 ∨ Q t.store (t.dim g)

variable {g : Cfg S O} {er : Bool} {Q : S → Dim → Prop}

theorem Keeps.reserveEmpty (K : Keeps g er Q) (t : Tab S O) (n : Nat) : Post (t.reserveEmpty g n) (Tab.Has g Q) := by
  unfold Tab.reserveEmpty
  refine Post.skip fun bits => ?_
  refine Post.skip fun _ => ?_
  refine Post.bind (K.alloc _) fun s hs => ?_
  refine Post.skip fun o => ?_
  exact Post.pure (.inr hs)

theorem Keeps.moveBucket {ins : Tab S O → Nat → Nat → Res (Tab S O × Nav)}
    (hins : ∀ t k v, t.Has g Q → Post (ins t k v) (fun r => r.1.Has g Q)) (t tmp : Tab S O) (b : Nat)
    (h : tmp.Has g Q) : Post (t.moveBucket g ins tmp b) (Tab.Has g Q) := by
  unfold Tab.moveBucket
  refine Post.skip fun n => ?_
  refine Post.foldlM h fun tmp h i _ => ?_
  refine Post.skip fun q => ?_
  refine Post.skip fun k => ?_
  refine Post.skip fun v => ?_
  refine Post.bind (hins _ _ _ h) fun r hr => ?_
  exact Post.pure hr

theorem Keeps.moveOverflow {ins : Tab S O → Nat → Nat → Res (Tab S O × Nav)}
    (hins : ∀ t k v, t.Has g Q → Post (ins t k v) (fun r => r.1.Has g Q)) (t : Tab S O) :
    ∀ (f i : Nat) (tmp : Tab S O), tmp.Has g Q → Post (t.moveOverflow g ins f i tmp) (Tab.Has g Q) := by
  intro f
  induction f with
  | zero => intro i tmp _; exact Post.error
  | succ f ih =>
    intro i tmp h
    unfold Tab.moveOverflow
    refine Post.ite (fun _ => ?_) (fun _ => Post.ok h)
    refine Post.skip fun k => ?_
    refine Post.skip fun v => ?_
    exact Post.bind (hins _ _ _ h) fun r hr => ih _ _ hr

theorem Keeps.reserveWith (K : Keeps g er Q) {ins : Tab S O → Nat → Nat → Res (Tab S O × Nav)}
    (hins : ∀ t k v, t.Has g Q → Post (ins t k v) (fun r => r.1.Has g Q)) (t : Tab S O) (n nkw : Nat) :
    Post (t.reserveWith g ins n nkw) (Tab.Has g Q) := by
  unfold Tab.reserveWith
  refine Post.skip fun bits => ?_
  refine Post.ite (fun _ => K.reserveEmpty _ _) (fun _ => ?_)
  refine Post.bind (K.reserveEmpty _ _) fun tmp h => ?_
  refine Post.bind (Post.foldlM h fun tmp h b _ => Keeps.moveBucket hins _ _ _ h) fun tmp h => ?_
  refine Post.skip fun _ => ?_
  refine Post.bind (Keeps.moveOverflow hins _ _ _ _ h) fun tmp h => ?_
  refine Post.skip fun _ => ?_
  exact Post.pure h

theorem Keeps.findOrInsert (K : Keeps g er Q) : ∀ (f : Nat) (t : Tab S O) (k v : Nat), t.Has g Q →
    Post (t.findOrInsert g f k v) (fun r => r.1.Has g Q) := by
  intro f
  induction f with
  | zero => intro t k v _; exact Post.error
  | succ f ih =>
    intro t k v h
    unfold Tab.findOrInsert
    refine Post.skip fun _ => ?_
    refine Post.bind (P := Tab.Has g Q) (Post.ite (fun _ => K.reserveEmpty _ _) (fun _ => Post.ok h)) fun t h => ?_
    refine Post.skip fun ⟨q, b⟩ => ?_
    refine Post.skip fun _ => ?_
    refine Post.skip fun pos => ?_
    refine Post.ite (fun _ => Post.pure h) (fun _ => ?_)
    refine Post.skip fun consult => ?_
    refine Post.skip fun opos => ?_
    refine Post.ite (fun _ => Post.pure h) (fun _ => ?_)
    refine Post.bind Post.self fun full hfull => ?_
    refine Post.ite (fun _ => ?_) (fun hf => ?_)
    · refine Post.skip fun ⟨o, p⟩ => ?_
      have h' : ({ t with ovf := o } : Tab S O).Has g Q := h
      refine Post.ite (fun _ => Post.pure h') (fun _ => ?_)
      refine Post.skip fun n => ?_
      exact Post.bind (K.reserveWith ih _ _ _) fun t h => ih _ _ _ h
    · refine Post.skip fun n => ?_
      have hff : g.ops.full t.store (t.dim g) b = .ok false := by
        rw [hfull]; cases full with
        | true => exact absurd rfl hf
        | false => rfl
      rcases h with h | h
      · refine Post.skip fun s => ?_
        exact Post.pure (.inl h)
      · refine Post.bind (K.push _ _ _ _ _ h hff) fun s hs => ?_
        exact Post.pure (.inr hs)

theorem Keeps.writeTab (K : Keeps g er Q) (t : Tab S O) (n : Nav) (v : Nat) (h : t.Has g Q) :
    Post (t.writeValue g n v) (Tab.Has g Q) := by
  unfold Tab.writeValue
  refine Post.ite (fun _ => Post.skip fun o => Post.pure h) (fun _ => ?_)
  refine Post.skip fun _ => ?_
  rcases h with h | h
  · exact Post.skip fun s => Post.pure (.inl h)
  · exact Post.bind (K.writeValue _ _ _ _ _ h) fun s hs => Post.pure (.inr hs)

theorem Keeps.eraseNav (K : Keeps g true Q) (t : Tab S O) (n : Nav) (h : t.Has g Q)
    (hn : 0 < g.ov.size t.ovf ∧ n.bucket = t.bucketCount ∨ ∃ q, g.ops.locate t.store (t.dim g) n.bucket q = .ok n.pos) :
    Post (t.eraseNav g n) (fun r => r.1.Has g Q) := by
  unfold Tab.eraseNav
  refine Post.ite (fun _ => Post.pure h) (fun hp => ?_)
  refine Post.ite (fun _ => Post.skip fun o => Post.pure h) (fun ho => ?_)
  refine Post.skip fun _ => ?_
  rcases hn with hn | ⟨q, hn⟩
  · exact absurd hn ho
  · rcases h with h | h
    · exact Post.skip fun s => Post.pure (.inl h)
    · exact Post.bind (K.eraseAt rfl _ _ _ _ _ h hn hp) fun s hs => Post.pure (.inr hs)

theorem Tab.locate_post (t : Tab S O) (k : Nat) : Post (t.locate g k) (fun n =>
    0 < g.ov.size t.ovf ∧ n.bucket = t.bucketCount ∨ ∃ q, g.ops.locate t.store (t.dim g) n.bucket q = .ok n.pos) := by
  unfold Tab.locate
  refine Post.ite (fun _ => Post.error) (fun _ => ?_)
  refine Post.skip fun ⟨q, b⟩ => ?_
  refine Post.skip fun _ => ?_
  refine Post.skip fun consult => ?_
  refine Post.bind (P := fun p => p ≠ NPOS → 0 < g.ov.size t.ovf)
    (Post.ite (fun h => Post.mono Post.trivial fun _ _ _ => h.2) (fun _ => Post.ok (fun h => absurd rfl h))) fun p hp => ?_
  refine Post.ite (fun h => Post.pure (.inl ⟨hp h, rfl⟩)) (fun _ => ?_)
  exact Post.bind Post.self fun pos hpos => Post.pure (.inr ⟨q, hpos⟩)

theorem Keeps.shrinkTab (K : Keeps g er Q) (t : Tab S O) (h : t.Has g Q) : Post (t.shrink g) (Tab.Has g Q) := by
  unfold Tab.shrink
  refine Post.ite (fun _ => Post.pure h) (fun _ => ?_)
  refine Post.foldlM h fun t h b _ => ?_
  rcases h with h | h
  · exact Post.skip fun s => Post.pure (.inl h)
  · exact Post.bind (K.shrink _ _ _ h) fun s hs => Post.pure (.inr hs)

/-- a call that does not erase -/
def MapOp.noErase : MapOp → Bool
  | .erase _ => false
  | _ => true

theorem Keeps.step (K : Keeps g er Q) (t : Tab S O) (op : MapOp) (hop : er = true ∨ op.noErase = true) (h : t.Has g Q) :
    Post (t.step g op) (fun r => r.1.Has g Q) := by
  cases op with
  | insert k v =>
    refine Post.bind (K.findOrInsert _ _ _ _ h) fun ⟨t, n⟩ h => ?_
    exact Post.skip fun _ => Post.skip fun _ => Post.pure h
  | get k =>
    refine Post.bind (K.findOrInsert _ _ _ _ h) fun ⟨t, n⟩ h => ?_
    exact Post.skip fun _ => Post.pure h
  | assign k v =>
    refine Post.bind (K.findOrInsert _ _ _ _ h) fun ⟨t, n⟩ h => ?_
    exact Post.bind (K.writeTab _ _ _ h) fun t h => Post.pure h
  | find k =>
    refine Post.skip fun n => Post.skip fun e => ?_
    refine Post.ite (fun _ => Post.pure h) (fun _ => ?_)
    exact Post.skip fun _ => Post.skip fun _ => Post.pure h
  | count k => exact Post.skip fun _ => Post.pure h
  | erase k =>
    rcases hop with rfl | hop
    · refine Post.bind (P := fun r => r.1.Has g Q) ?_ fun ⟨t, c⟩ h => Post.pure h
      unfold Tab.erase
      refine Post.ite (fun _ => Post.pure h) (fun _ => ?_)
      exact Post.bind (Tab.locate_post t k) fun n hn => Keeps.eraseNav K _ _ h hn
    · cases hop
  | size => exact Post.ok h
  | empty => exact Post.ok h
  | reserve n => exact Post.bind (K.reserveWith (fun t k v h => K.findOrInsert _ t k v h) _ _ _) fun t h => Post.pure h
  | shrink => exact Post.bind (K.shrinkTab _ h) fun t h => Post.pure h
  | clear => exact Post.ok (.inl rfl)

/-- the property holds after every history -/
theorem Keeps.run (K : Keeps g er Q) : ∀ (ops : List MapOp) (t : Tab S O), (er = true ∨ ∀ op ∈ ops, op.noErase = true) →
    t.Has g Q → Post (t.run g ops) (fun r => r.1.Has g Q) := by
  intro ops
  induction ops with
  | nil => intro t _ h; exact Post.ok h
  | cons op ops ih =>
    intro t hops h
    refine Post.bind (K.step t op (hops.imp_right fun h => h op (by simp)) h) fun ⟨t, a⟩ h => ?_
    exact Post.bind (ih t (hops.imp_right fun h op hop => h op (by simp [hop])) h) fun ⟨t, as⟩ h => Post.pure h

end SC
