import Verif.Table.Facts
import Verif.Table.Kinds
/-!
# The number of buckets over whole histories
-/
namespace SC
variable {S O : Type} {g : Cfg S O} {P : Par S O}

/-- no call of `reserve` asks for more than `n` buckets -/
def ReserveAtMost (n : Nat) (ops : List MapOp) : Prop := ∀ m, .reserve m ∈ ops → m ≤ n

/-- one call -/
theorem Tab.step_tb (L : Laws g P) (hg : P.grow < 65) {t t' : Tab S O} {l : List (Nat × Nat)} (h : Inv g P t l) {N : Nat} {op : MapOp}
    {a : Ans} (hop : OpOK P op) (hN : ∀ n, op = .reserve n → 1 ≤ n ∧ n ≤ 2 ^ 63 ∧ n ≤ 2 ^ N) (hs : t.step g op = .ok (t', a)) :
    t'.tb ≤ max t.tb (max (max P.ini P.grow) N) := by
  cases op with
  | insert k v =>
    obtain ⟨t1, n, h1, _, _, h4⟩ := h.insert L hg hop.1 hop.2
    simp only [Tab.step, h1, ok_bind] at hs
    obtain ⟨_, _, hs⟩ := bind_eq_ok hs
    obtain ⟨_, _, hs⟩ := bind_eq_ok hs
    cases hs
    omega
  | get k =>
    obtain ⟨t1, n, h1, _, _, h4⟩ := h.insert L hg hop.1 hop.2
    simp only [Tab.step, Tab.subscript, h1, ok_bind] at hs
    obtain ⟨_, _, hs⟩ := bind_eq_ok hs
    cases hs
    omega
  | assign k v =>
    obtain ⟨t1, n, h1, _, _, h4⟩ := h.insert L hg hop.1 hop.2.2
    simp only [Tab.step, Tab.subscript, h1, ok_bind] at hs
    obtain ⟨t2, h2, hs⟩ := bind_eq_ok hs
    have e : t2.tb = t1.tb := by
      unfold Tab.writeValue at h2
      split at h2
      · obtain ⟨_, _, h2⟩ := bind_eq_ok h2
        cases h2; rfl
      · obtain ⟨_, _, h2⟩ := bind_eq_ok h2
        obtain ⟨_, _, h2⟩ := bind_eq_ok h2
        cases h2; rfl
    cases hs
    omega
  | find k =>
    simp only [Tab.step] at hs
    obtain ⟨_, _, hs⟩ := bind_eq_ok hs
    obtain ⟨e, _, hs⟩ := bind_eq_ok hs
    cases e with
    | true => cases hs; omega
    | false =>
      simp only [Bool.false_eq_true, if_false] at hs
      obtain ⟨_, _, hs⟩ := bind_eq_ok hs
      obtain ⟨_, _, hs⟩ := bind_eq_ok hs
      cases hs; omega
  | count k =>
    simp only [Tab.step] at hs
    obtain ⟨_, _, hs⟩ := bind_eq_ok hs
    cases hs; omega
  | erase k =>
    simp only [Tab.step] at hs
    rcases h.erase L (k := k) hop with ⟨t1, v, l1, h1, _, _, h4⟩ | ⟨h1, _⟩
    · rw [h1] at hs; cases hs; show t1.tb ≤ _; omega
    · rw [h1] at hs; cases hs; show t.tb ≤ _; omega
  | size => cases hs; omega
  | empty => cases hs; omega
  | reserve n =>
    obtain ⟨n1, n2, n3⟩ := hN n rfl
    have hc := reserveBits_ceilLog n1 n2
    have hle := (ceilLog_le_iff n1).mpr n3
    obtain ⟨r, hr, h0, hhi⟩ := hop
    have e : r = ceilLog n := by rw [hr] at hc; exact Except.ok.inj hc
    simp only [Tab.step] at hs
    rcases h0 with ⟨rfl, hone⟩ | hlo
    · obtain ⟨t1, h1, _, h3⟩ := h.reserve_one L hg hr hone
      rw [h1] at hs; cases hs; omega
    · obtain ⟨t1, h1, _, _, h3⟩ := h.reserve L hg hr hlo hhi
      rw [h1] at hs; cases hs; omega
  | shrink =>
    simp only [Tab.step] at hs
    obtain ⟨t1, h1, _, h3⟩ := h.shrink L
    rw [h1] at hs; cases hs; omega
  | clear =>
    cases hs
    exact Nat.zero_le _

/-- a sequence of calls -/
theorem Tab.run_tb (L : Laws g P) (hg : P.grow < 65) {N : Nat} : ∀ (ops : List MapOp) {t t' : Tab S O} {l : List (Nat × Nat)} {m : FMap}
    {as : List Ans}, Inv g P t l → Abs l m → (∀ op ∈ ops, OpOK P op) →
    (∀ n, .reserve n ∈ ops → 1 ≤ n ∧ n ≤ 2 ^ 63 ∧ n ≤ 2 ^ N) → t.tb ≤ max (max P.ini P.grow) N →
    Tab.run g t ops = .ok (t', as) → t'.tb ≤ max (max P.ini P.grow) N := by
  intro ops
  induction ops with
  | nil => intro t t' l m as _ _ _ _ ht hs; cases hs; exact ht
  | cons op ops ih =>
    intro t t' l m as h ha hops hN ht hs
    obtain ⟨t1, l1, h1, h2, h3⟩ := Tab.step_ok L hg h ha op (hops op (by simp))
    have h4 := Tab.step_tb L hg h (N := N) (hops op (by simp)) (fun n hn => hN n (by simp [hn])) h1
    simp only [Tab.run, h1, ok_bind] at hs
    obtain ⟨⟨t2, as2⟩, h5, hs⟩ := bind_eq_ok hs
    cases hs
    exact ih h2 h3 (fun op' hop' => hops op' (by simp [hop'])) (fun n hn => hN n (by simp [hn])) (by omega) h5

/-- Whole histories: the table is never larger than the largest request, the first allocation and the size at which automatic growth
ends. -/
theorem fact_buckets (L : Laws g P) (hg : P.grow < 65) {kw lo hi : Nat} {vals : Nat → Prop} {ops : List MapOp}
    (hops : ∀ op ∈ ops, OpOK P op) (hv : ∀ op ∈ ops, ValidOp kw lo hi vals op) (hhi : hi < 64) {N : Nat} (hN : ReserveAtMost (2 ^ N) ops)
    {t : Tab S O} {as : List Ans} (h : Tab.run g (Tab.new g P.kw P.vw) ops = .ok (t, as)) :
    t.bucketCount ≤ max (max (2 ^ P.ini) (2 ^ P.grow)) (2 ^ N) := by
  have key := Tab.run_tb L hg (N := N) ops (Inv.new L) Abs.empty hops (fun n hn => by
    obtain ⟨h1, h2, _⟩ : 1 ≤ n ∧ n ≤ 2 ^ hi ∧ _ := hv _ hn
    exact ⟨h1, Nat.le_trans h2 (Nat.pow_le_pow_right (by omega) (by omega)), hN n hn⟩) (Nat.zero_le _) h
  have hle : ∀ a b : Nat, a ≤ b → 2 ^ a ≤ 2 ^ b := fun a b hab => Nat.pow_le_pow_right (by omega) hab
  have hb : t.bucketCount ≤ 2 ^ t.tb := by
    unfold Tab.bucketCount
    split
    · exact Nat.zero_le _
    · exact Nat.le_refl _
  by_cases h1 : t.tb ≤ P.ini
  · have := hle _ _ h1; omega
  by_cases h2 : t.tb ≤ P.grow
  · have := hle _ _ h2; omega
  have := hle t.tb N (by omega)
  omega

end SC
