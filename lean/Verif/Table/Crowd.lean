import Verif.Table.Facts
import Verif.Table.Kinds
/-!
# Keys that collide force a table to grow
-/
namespace SC

/-- the bucket in a table with fewer buckets -/
theorem HashKind.coarse {hk : HashKind} {kw k q b s tb : Nat} (hkw : 1 ≤ kw ∧ kw ≤ 64) (hk' : k < 2 ^ kw) (h1 : 1 ≤ tb) (h2 : tb ≤ s) (h3 : s < 64)
    (h : (hk.mapping kw).map k s = .ok (q, b)) : ∃ q', (hk.mapping kw).map k tb = .ok (q', b % 2 ^ tb) := by
  have hd : 2 ^ tb ∣ 2 ^ s := Nat.pow_dvd_pow 2 h2
  have bij : ∀ (f : BijHash) (sbits : Nat), LawfulBij f kw → (bijectiveHashAdapter f sbits kw).map k s = .ok (q, b) →
      ∃ q', (bijectiveHashAdapter f sbits kw).map k tb = .ok (q', b % 2 ^ tb) := by
    intro f sbits hf h
    obtain ⟨y, hy, _, _⟩ := hf.left k hk'
    rw [bij_map h3 hy] at h
    cases h
    exact ⟨_, by rw [bij_map (by omega) hy, Nat.mod_mod_of_dvd _ hd]⟩
  cases hk with
  | xorshift sbits => exact bij _ _ (lawful_xorshift hkw.1 hkw.2) h
  | multiplicative sbits => exact bij _ _ (lawful_multiplicative hkw.1 hkw.2) h
  | splitMix =>
    simp only [HashKind.mapping] at h ⊢
    rw [adapter_map (by omega) (by omega)] at h
    cases h
    exact ⟨k, by rw [adapter_map h1 (by omega), Nat.mod_mod_of_dvd _ hd]⟩

/-- keys that collide: `n` keys in `2^s` buckets that fall into the same one -/
theorem HashKind.collide {hk : HashKind} {kw s n : Nat} (hq : hk ≠ .splitMix) (hkw : 1 ≤ kw ∧ kw ≤ 64) (hs : s ≤ kw) (h64 : s < 64)
    (hn : n ≤ 2 ^ (kw - s)) : ∃ ks : List Nat, ks.length = n ∧ ks.Nodup ∧ ∀ k ∈ ks, k < 2 ^ kw ∧ ∃ q, (hk.mapping kw).map k s = .ok (q, 0) := by
  have bij : ∀ (f : BijHash) (sbits : Nat), LawfulBij f kw → ∃ ks : List Nat, ks.length = n ∧ ks.Nodup ∧
      ∀ k ∈ ks, k < 2 ^ kw ∧ ∃ q, (bijectiveHashAdapter f sbits kw).map k s = .ok (q, 0) := by
    intro f sbits hf
    have hlt : ∀ i, i < n → i * 2 ^ s < 2 ^ kw := fun i hi => by
      rw [show kw = (kw - s) + s by omega, Nat.pow_add]
      exact Nat.mul_lt_mul_of_pos_right (by omega) (Nat.two_pow_pos _)
    have key : ∀ i, ∃ k, i < n → k < 2 ^ kw ∧ f.hash kw k = .ok (i * 2 ^ s) := fun i => by
      by_cases hi : i < n
      · obtain ⟨x, _, h2, h3⟩ := hf.right _ (hlt i hi)
        exact ⟨x, fun _ => ⟨h2, h3⟩⟩
      · exact ⟨0, fun h => absurd h hi⟩
    obtain ⟨g, hg⟩ := Classical.axiomOfChoice key
    refine ⟨(List.range n).map g, by simp, ?_, ?_⟩
    · rw [List.Nodup, List.pairwise_map]
      refine List.Pairwise.imp_of_mem ?_ List.nodup_range
      intro a b ha hb hne e
      have h1 := (hg a (List.mem_range.mp ha)).2
      have h2 := (hg b (List.mem_range.mp hb)).2
      rw [e, h2] at h1
      exact hne (Nat.eq_of_mul_eq_mul_right (Nat.two_pow_pos s) (Except.ok.inj h1)).symm
    · intro k hk
      obtain ⟨i, hi, rfl⟩ := List.mem_map.mp hk
      obtain ⟨h1, h2⟩ := hg i (List.mem_range.mp hi)
      exact ⟨h1, _, by rw [bij_map h64 h2, Nat.mul_mod_left]⟩
  cases hk with
  | xorshift sbits => exact bij _ _ (lawful_xorshift hkw.1 hkw.2)
  | multiplicative sbits => exact bij _ _ (lawful_multiplicative hkw.1 hkw.2)
  | splitMix => exact absurd rfl hq

variable {S O : Type} {g : Cfg S O} {P : Par S O}

/-- If more than `M` stored keys fall into the same of `2^s` buckets and no bucket holds more than `M` elements, there are more buckets than that. -/
theorem Sem.crowd (L : Laws g P) (hov : ∀ o n l full, P.RepO o n l full → l = []) {M : Nat}
    (hM : ∀ s d c b, P.Rep s d c → 1 ≤ d.bpg → b < 2 ^ d.tb → (c b).length ≤ M) {t : Tab S O} {m : FMap} (h : Sem g P t m) {ks : List Nat} (hn : ks.Nodup)
    (hm : ∀ k ∈ ks, k < 2 ^ P.kw ∧ m.get k ≠ none) (hc : M < ks.length) {s b : Nat}
    (hs : ∀ k ∈ ks, ∀ tb, 1 ≤ tb → tb ≤ s → ∃ q, (g.hash P.kw).map k tb = .ok (q, b % 2 ^ tb)) : t.tb ≠ 0 ∧ s < t.tb := by
  obtain ⟨l, hi, ha⟩ := h
  have hin : ∀ k ∈ ks, ∃ v, (k, v) ∈ l := fun k hk => by
    cases e : m.get k with
    | none => exact absurd e (hm k hk).2
    | some v => exact ⟨v, (ha.get k v).mp e⟩
  rcases hi with ⟨_, _, _, _, _, _, h7, _⟩ | ⟨c, o, full, hl, hp⟩
  · subst h7
    cases ks with
    | nil => simp at hc
    | cons k ks =>
      obtain ⟨v, hv⟩ := hin k (by simp)
      simp at hv
  · have h1 := hl.tb_pos L
    refine ⟨by omega, Nat.lt_of_not_le fun hle => ?_⟩
    have ho := hov _ _ _ _ hl.orep
    subst ho
    have hb : b % 2 ^ t.tb < 2 ^ t.tb := Nat.mod_lt _ (Nat.two_pow_pos _)
    have h2 := hM _ _ _ _ hl.rep (show 1 ≤ t.bpg from hl.bpg_pos) (show b % 2 ^ t.tb < 2 ^ t.tb from hb)
    have h3 := List.Nodup.length_le_of_subset (l₂ := (c (b % 2 ^ t.tb)).map (fun e => invKey (g.hash P.kw) t.tb (b % 2 ^ t.tb) e.1)) hn (fun k hk => by
      obtain ⟨q, hq⟩ := hs k hk t.tb h1 hle
      obtain ⟨v, hv⟩ := hin k hk
      rcases (mem_ents (hl.map_ok L) hl.cok (hm k hk).1 hq).mp (hp.mem_iff.mp hv) with h | ⟨p, h⟩
      · exact List.mem_map.mpr ⟨_, h, (invKey_of_map (hl.map_ok L) (hm k hk).1 hq).1⟩
      · simp at h)
    rw [List.length_map] at h3
    omega

end SC
