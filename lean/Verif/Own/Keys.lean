import Verif.Own.Prog
import Verif.Table.HashLaws
/-!
# Which keys a program uses, and when the recursion in `find_or_insert` ends

The ownership models work with any function that chooses a bucket.  For a function that puts all keys in one bucket the recursion of `find_or_insert`
and `reserve` does not end.  Here is what has to be known about keys and hash function so that it does end.
-/
namespace SC.Own

/-- Demands on a program: the keys it may use, the greatest number of buckets (as exponent of two), and whether the calls have to return. -/
structure Keys where
  key : Nat → Prop
  top : Nat
  sure : Prop

/-- no demands: any number is a key, calls do not have to return -/
def Keys.any : Keys := ⟨fun _ => True, 63, False⟩

theorem key_any (k : Nat) : Keys.any.key k := trivial

/-- at most `max` keys are put in the same place -/
def Spread (place : Nat → Nat) (key : Nat → Prop) (max : Nat) : Prop := ∀ b (xs : List Nat), xs.Nodup → (∀ x ∈ xs, key x ∧ place x = b) → xs.length ≤ max

/-- the entries of a bucket -/
def bkKeys : Bk → List Nat
  | none => []
  | some (_, xs) => xs

/-- the entries of bucket `i` are keys, they belong there, and none is stored twice -/
structure Holds (K : Keys) (place : Nat → Nat) (i : Nat) (xs : List Nat) : Prop where
  key : ∀ x ∈ xs, K.key x
  nodup : K.sure → xs.Nodup
  place : K.sure → ∀ x ∈ xs, place x = i

variable {K : Keys} {place : Nat → Nat} {i k max : Nat} {xs : List Nat}

theorem Holds.nil : Holds K place i [] := ⟨by simp, by simp, by simp⟩

theorem Holds.snoc (h : Holds K place i xs) (hk : K.key k) (hp : place k = i) (hn : k ∉ xs) : Holds K place i (xs ++ [k]) where
  key x hx := by
    rcases List.mem_append.mp hx with hx | hx
    · exact h.key x hx
    · rw [List.mem_singleton.mp hx]; exact hk
  nodup hs := by
    rw [List.nodup_append]
    refine ⟨h.nodup hs, by simp, fun a ha b hb => ?_⟩
    rw [List.mem_singleton.mp hb]
    exact fun e => hn (e ▸ ha)
  place hs x hx := by
    rcases List.mem_append.mp hx with hx | hx
    · exact h.place hs x hx
    · rw [List.mem_singleton.mp hx]; exact hp

theorem Holds.eraseIdx (h : Holds K place i xs) (j : Nat) : Holds K place i (xs.eraseIdx j) where
  key x hx := h.key x (List.mem_of_mem_eraseIdx hx)
  nodup hs := (h.nodup hs).sublist (List.eraseIdx_sublist _ _)
  place hs x hx := h.place hs x (List.mem_of_mem_eraseIdx hx)

/-- a bucket that has no room for one more key -/
theorem Holds.full (h : Holds K place i xs) (hs : K.sure) (hk : K.key k) (hp : place k = i) (hn : k ∉ xs) (hlen : xs.length = max) :
    ¬ Spread place K.key max := by
  intro h2
  have h1 := h.snoc hk hp hn
  have := h2 i _ (h1.nodup hs) (fun x hx => ⟨h1.key x hx, h1.place hs x hx⟩)
  simp only [List.length_append, List.length_singleton] at this
  omega

/-! ## Outcomes -/

/-- The outcome is a normal return with `P`; or else the recursion does not end (for a hash function that puts all keys in one bucket) or the number of
buckets exceeds `2^63`, but this is impossible under the assumption `Q`. -/
def Safe (Q : Prop) {α : Type} (r : Res α) (P : α → Prop) : Prop := Out (fun e => ¬ Q ∧ (e = .fuel ∨ e = .shift)) r P

variable {Q : Prop}

theorem Safe.bind {α β : Type} {r : Res α} {P : α → Prop} {P' : β → Prop} {f : α → Res β} (h : Safe Q r P) (hf : ∀ x, P x → Safe Q (f x) P') :
    Safe Q (r >>= f) P' := Out.bind h hf

theorem Safe.of_ok {α : Type} {r : Res α} {P : α → Prop} {x : α} (h : r = .ok x) (hP : P x) : Safe Q r P := by rw [h]; exact hP

theorem Safe.mono {α : Type} {r : Res α} {P P' : α → Prop} (h : Safe Q r P) (hPQ : ∀ x, P x → P' x) : Safe Q r P' := Out.mono h hPQ

theorem Safe.weaken {α : Type} {Q' : Prop} {r : Res α} {P : α → Prop} (h : Safe Q r P) (hQ : Q' → Q) : Safe Q' r P :=
  Out.weaken h (fun _ he => ⟨fun q => he.1 (hQ q), he.2⟩)

theorem Safe.foldlM {α β : Type} (P : α → Prop) {f : α → β → Res α} : ∀ (l : List β) (a : α),
    (∀ a b, b ∈ l → P a → Safe Q (f a b) P) → P a → Safe Q (l.foldlM f a) P := by
  intro l
  induction l with
  | nil => intro a _ h; exact h
  | cons b l ih =>
    intro a hf h
    rw [List.foldlM_cons]
    exact (hf a b (by simp) h).bind (fun x hx => ih x (fun a b hb => hf a b (by simp [hb])) hx)

/-- argument of `reserve`: a 64 bit number; a call that has to return does not ask for no buckets or for more than allowed -/
def Keys.Room (K : Keys) (n : Nat) : Prop := n < 2 ^ 64 ∧ (K.sure → 1 ≤ n ∧ n ≤ 2 ^ K.top)

theorem room_any {n : Nat} : Keys.any.Room n ↔ n < 2 ^ 64 := ⟨fun h => h.1, fun h => ⟨h, False.elim⟩⟩

/-- the number of buckets is limited by the size of a machine word, or by less if calls have to return -/
structure Keys.Limit (K : Keys) : Prop where
  top : K.top ≤ 63
  unsure : ¬ K.sure → K.top = 63

theorem reserveBits_large {n : Nat} (h1 : 2 ^ 63 < n) (hn : n < 2 ^ 64) : reserveBits n = .error .shift := by
  have h0 : n ≠ 0 := by omega
  have e : Nat.log2 n = 63 := by
    rw [Nat.log2_eq_iff h0]
    omega
  have h3 : ¬ (1 <<< 63 % W64 = n) := by
    intro h
    have : 1 <<< 63 % W64 = 2 ^ 63 := by decide
    omega
  have h4 : shl64 1 63 = .ok (1 <<< 63 % W64) := rfl
  have h5 : ((63 : Nat) : Int) % 256 = 63 := by decide
  simp only [reserveBits, mostSignificantBit, if_neg h0, e, h5, show (63 : Int).toNat = 63 from rfl, h4, ok_bind, ne_eq, h3,
    not_false_eq_true, if_true]
  rfl

/-- the number of buckets is the smallest power of two that is enough -/
theorem reserveBits_tight {K : Keys} (l : K.Limit) {n : Nat} (hn : K.Room n) :
    Safe K.sure (reserveBits n) (fun b => (2 ≤ n → b ≠ 0) ∧ b ≤ K.top ∧ n ≤ 2 ^ b ∧ 2 ^ b < 2 * n) := by
  by_cases h0 : n = 0
  · subst h0
    rw [reserveBits_zero]
    exact ⟨fun h => absurd (hn.2 h).1 (by omega), .inr rfl⟩
  · by_cases h1 : n ≤ 2 ^ 63
    · rw [reserveBits_ceilLog (by omega) h1]
      have h3 := (le_pow_ceilLog (n := n) (by omega)).1
      refine ⟨fun h2 e => ?_, ?_, h3, ?_⟩
      · rw [e] at h3
        omega
      · rw [ceilLog_le_iff (by omega)]
        by_cases hs : K.sure
        · exact (hn.2 hs).2
        · rw [l.unsure hs]; exact h1
      · by_cases hz : ceilLog n = 0
        · rw [hz]; omega
        · have : ¬ ceilLog n ≤ ceilLog n - 1 := by omega
          rw [ceilLog_le_iff (by omega)] at this
          obtain ⟨b, hb⟩ : ∃ b, ceilLog n = b + 1 := ⟨ceilLog n - 1, by omega⟩
          rw [hb] at this ⊢
          rw [Nat.pow_succ]
          simp only [Nat.add_sub_cancel] at this
          omega
    · rw [reserveBits_large (by omega) hn.1]
      refine ⟨fun h => h1 (Nat.le_trans (hn.2 h).2 (Nat.pow_le_pow_right (by omega) l.top)), .inr rfl⟩

theorem reserveBits_safe {K : Keys} (l : K.Limit) {n : Nat} (hn : K.Room n) :
    Safe K.sure (reserveBits n) (fun b => (2 ≤ n → b ≠ 0) ∧ b ≤ K.top ∧ n ≤ 2 ^ b) :=
  (reserveBits_tight l hn).mono (fun _ h => ⟨h.1, h.2.1, h.2.2.1⟩)

theorem shl_safe {K : Keys} (l : K.Limit) {lg : Nat} (hlg : K.sure → lg ≤ K.top) : Safe K.sure (shl64 1 lg) (fun m => K.Room m ∧ m = 2 ^ lg) := by
  unfold shl64
  have ht := l.top
  by_cases hb : lg < 64
  · rw [if_pos hb]
    have : 2 ^ lg < 2 ^ 64 := Nat.pow_lt_pow_right (by omega) hb
    have e1 : 1 <<< lg % W64 = 2 ^ lg := by rw [Nat.one_shiftLeft]; exact Nat.mod_eq_of_lt this
    rw [e1]
    exact ⟨⟨this, fun hs => ⟨Nat.two_pow_pos _, Nat.pow_le_pow_right (by omega) (hlg hs)⟩⟩, rfl⟩
  · rw [if_neg hb]; exact ⟨fun hs => by have := hlg hs; omega, .inr rfl⟩

/-- twice as many buckets -/
theorem shl64_safe {K : Keys} (l : K.Limit) {lg : Nat} (hlg : K.sure → lg < K.top) :
    Safe K.sure (shl64 1 (lg + 1)) (fun m => K.Room m ∧ m = 2 ^ (lg + 1)) := shl_safe l (fun hs => hlg hs)

/-- The depth `f` of the recursion is enough for a table with `2 ^ lg` buckets. -/
def Keys.Deep (K : Keys) (f lg : Nat) : Prop := K.sure ∧ 0 < f ∧ K.top < lg + f

theorem Keys.Deep.mono {K : Keys} {f lg lg' : Nat} (h : K.Deep f lg) (hl : lg ≤ lg') : K.Deep f lg' := ⟨h.1, h.2.1, by have := h.2.2; omega⟩

theorem Keys.Deep.step {K : Keys} {f lg lg' : Nat} (h : K.Deep (f + 1) lg) (hlg : lg < K.top) (hl : lg + 1 ≤ lg') : K.Deep f lg' :=
  ⟨h.1, by have := h.2.2; omega, by have := h.2.2; omega⟩

end SC.Own
