import Verif.Table.Observe
/-!
# Tables that differ in `eraseAt` only

Used where `eraseAt` does not meet its specification: all other functions do the same as in a table whose `eraseAt` does.
-/
namespace SC
variable {S O : Type}

/-- replace `eraseAt` -/
def Cfg.withErase (g : Cfg S O) (f : S → Dim → Nat → Nat → Res S) : Cfg S O := { g with ops := { g.ops with eraseAt := f } }

variable {g : Cfg S O} {f : S → Dim → Nat → Nat → Res S}

theorem reserveEmpty_withErase (t : Tab S O) (n : Nat) : t.reserveEmpty (g.withErase f) n = t.reserveEmpty g n := rfl

theorem new_withErase (kw vw : Nat) : Tab.new (g.withErase f) kw vw = Tab.new g kw vw := rfl

theorem withErase_self : g.withErase g.ops.eraseAt = g := rfl

theorem dim_withErase (t : Tab S O) : t.dim (g.withErase f) = t.dim g := rfl

theorem Live_withErase {P : Par S O} {t : Tab S O} {c : Cont} {o : List (Nat × Nat × Nat)} {full : Nat → Bool} :
    Live (g.withErase f) P t c o full ↔ Live g P t c o full := by
  constructor
  · rintro ⟨h1, h2, h3, h4, h5, h6, h7, h8, h9, h10, h11, h12, h13⟩
    exact ⟨h1, h2, h3, h4, h5, h6, h7, h8, h9, h10, h11, h12, h13⟩
  · rintro ⟨h1, h2, h3, h4, h5, h6, h7, h8, h9, h10, h11, h12, h13⟩
    exact ⟨h1, h2, h3, h4, h5, h6, h7, h8, h9, h10, h11, h12, h13⟩

theorem Inv_withErase {P : Par S O} {t : Tab S O} {l : List (Nat × Nat)} : Inv (g.withErase f) P t l ↔ Inv g P t l := by
  unfold Inv
  simp only [Live_withErase]
  rfl

theorem Sem_withErase {P : Par S O} {t : Tab S O} {m : FMap} : Sem (g.withErase f) P t m ↔ Sem g P t m := by
  unfold Sem
  simp only [Inv_withErase]

theorem moveOverflow_withErase (ins : Tab S O → Nat → Nat → Res (Tab S O × Nav)) (t : Tab S O) : ∀ n i tmp,
    Tab.moveOverflow (g.withErase f) ins t n i tmp = Tab.moveOverflow g ins t n i tmp := by
  intro n
  induction n with
  | zero => intro i tmp; rfl
  | succ n ih =>
    intro i tmp
    simp only [Tab.moveOverflow, ih]
    rfl

theorem reserveWith_withErase (ins : Tab S O → Nat → Nat → Res (Tab S O × Nav)) (t : Tab S O) (n nkw : Nat) :
    t.reserveWith (g.withErase f) ins n nkw = t.reserveWith g ins n nkw := by
  unfold Tab.reserveWith
  simp only [moveOverflow_withErase]
  rfl

theorem findOrInsert_withErase : ∀ n, Tab.findOrInsert (g.withErase f) n = Tab.findOrInsert g n := by
  intro n
  induction n with
  | zero => rfl
  | succ n ih =>
    funext t k v
    rw [Tab.findOrInsert, Tab.findOrInsert, ih]
    simp only [reserveWith_withErase]
    rfl

theorem insert_withErase (t : Tab S O) (k v : Nat) : t.insert (g.withErase f) k v = t.insert g k v := by
  unfold Tab.insert
  rw [findOrInsert_withErase]

theorem reserve_withErase (t : Tab S O) (n nkw : Nat) : t.reserve (g.withErase f) n nkw = t.reserve g n nkw := by
  unfold Tab.reserve
  rw [findOrInsert_withErase, reserveWith_withErase]

/-- is this call not an erasure? -/
def MapOp.keeps : MapOp → Bool
  | .erase _ => false
  | _ => true

theorem step_withErase (t : Tab S O) {op : MapOp} (h : op.keeps = true) : t.step (g.withErase f) op = t.step g op := by
  cases op with
  | insert k v => simp only [Tab.step, insert_withErase]; rfl
  | get k => simp only [Tab.step, Tab.subscript, insert_withErase]; rfl
  | assign k v => simp only [Tab.step, Tab.subscript, insert_withErase]; rfl
  | erase k => cases h
  | reserve n => simp only [Tab.step, reserve_withErase]
  | _ => rfl

theorem run_withErase (ops : List MapOp) (h : ∀ op ∈ ops, op.keeps = true) (t : Tab S O) :
    Tab.run (g.withErase f) t ops = Tab.run g t ops := by
  induction ops generalizing t with
  | nil => rfl
  | cons op ops ih =>
    simp only [Tab.run]
    rw [step_withErase t (h op (by simp))]
    congr 1
    funext r
    rw [ih (fun op hop => h op (by simp [hop]))]

theorem lookup_withErase (t : Tab S O) (k : Nat) : t.lookup (g.withErase f) k = t.lookup g k := rfl

theorem scanUp_withErase (t : Tab S O) : ∀ n b, t.scanUp (g.withErase f) n b = t.scanUp g n b := by
  intro n
  induction n with
  | zero => intro b; rfl
  | succ n ih =>
    intro b
    simp only [Tab.scanUp, ih]
    rfl

theorem visit_withErase (t : Tab S O) : ∀ n p, t.visit (g.withErase f) n p = t.visit g n p := by
  intro n
  induction n with
  | zero => intro p; rfl
  | succ n ih =>
    intro p
    have h1 : t.next (g.withErase f) = t.next g := by
      funext p
      unfold Tab.next
      simp only [scanUp_withErase]
      rfl
    simp only [Tab.visit, ih, h1]
    rfl

theorem pairs_withErase (t : Tab S O) : t.pairs (g.withErase f) = t.pairs g := by
  unfold Tab.pairs Tab.beginNav
  simp only [scanUp_withErase, visit_withErase]
  rfl

/-- If `f` does what `eraseAt` does whenever that succeeds, a step that succeeds is not changed. -/
theorem step_relax (hf : ∀ s d b i r, g.ops.eraseAt s d b i = .ok r → f s d b i = .ok r) (t : Tab S O) {op : MapOp}
    {r : Tab S O × Ans} (h : t.step g op = .ok r) : t.step (g.withErase f) op = .ok r := by
  by_cases hk : op.keeps = true
  · rw [step_withErase t hk]; exact h
  · cases op with
    | erase k =>
      simp only [Tab.step] at h ⊢
      obtain ⟨x, h1, h2⟩ := bind_eq_ok h
      have h3 : t.erase (g.withErase f) k = .ok x := by
        unfold Tab.erase at h1 ⊢
        by_cases h0 : t.tb = 0
        · rw [if_pos h0] at h1 ⊢; exact h1
        · rw [if_neg h0] at h1 ⊢
          obtain ⟨n, h4, h5⟩ := bind_eq_ok h1
          have h6 : t.locate (g.withErase f) k = .ok n := h4
          rw [h6, ok_bind]
          unfold Tab.eraseNav at h5 ⊢
          by_cases hp : n.pos = NPOS
          · rw [if_pos hp] at h5 ⊢; exact h5
          · rw [if_neg hp] at h5 ⊢
            by_cases ho : 0 < g.ov.size t.ovf ∧ n.bucket = t.bucketCount
            · rw [if_pos ho] at h5
              rw [if_pos (show 0 < (g.withErase f).ov.size t.ovf ∧ n.bucket = t.bucketCount from ho)]
              exact h5
            · rw [if_neg ho] at h5
              rw [if_neg (show ¬ (0 < (g.withErase f).ov.size t.ovf ∧ n.bucket = t.bucketCount) from ho)]
              obtain ⟨u, h10, h5⟩ := bind_eq_ok h5
              rw [show ddcheck (g.withErase f).debug (n.bucket < t.bucketCount) = .ok u from h10, ok_bind]
              obtain ⟨s, h7, h8⟩ := bind_eq_ok h5
              have h9 : (g.withErase f).ops.eraseAt t.store (t.dim (g.withErase f)) n.bucket n.pos = .ok s := hf _ _ _ _ _ h7
              rw [h9]
              exact h8
      rw [h3]
      exact h2
    | _ => exact absurd rfl hk

end SC
