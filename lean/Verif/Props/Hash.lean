import Verif.Hash.MappingLemmas
/-!
# Properties C01 - C06: hash functions and hash mappings
-/
namespace SC

/-- **C01** For every width `w` in 1..64, `Xorshift(w).hash` is a bijection of the `w`-bit integers and
`hash_inv` is its two-sided inverse.  No call runs into undefined behaviour. -/
theorem C01_xorshift_bijection (w : Nat) (h1 : 1 ≤ w) (h2 : w ≤ 64) (x : Nat) (hx : x < 2 ^ w) :
    (∃ y, xorshiftHash w x = .ok y ∧ y < 2 ^ w ∧ xorshiftHashInv w y = .ok x) ∧
    (∃ y, xorshiftHashInv w x = .ok y ∧ y < 2 ^ w ∧ xorshiftHash w y = .ok x) :=
  ⟨(lawful_xorshift h1 h2).left x hx, (lawful_xorshift h1 h2).right x hx⟩

example : xorshiftHash 13 4711 = .ok 6173 ∧ xorshiftHashInv 13 6173 = .ok 4711 ∧ 4711 < 2 ^ 13 := by
  decide +kernel

/-- **C02** The same for `MultiplicativeHash`. -/
theorem C02_multiplicative_bijection (w : Nat) (h1 : 1 ≤ w) (h2 : w ≤ 64) (x : Nat) (hx : x < 2 ^ w) :
    (∃ y, multHash w x = .ok y ∧ y < 2 ^ w ∧ multHashInv w y = .ok x) ∧
    (∃ y, multHashInv w x = .ok y ∧ y < 2 ^ w ∧ multHash w y = .ok x) :=
  ⟨(lawful_multiplicative h1 h2).left x hx, (lawful_multiplicative h1 h2).right x hx⟩

example : multHash 13 4711 = .ok 5629 ∧ multHashInv 13 5629 = .ok 4711 := by decide +kernel

/-- The two bijective functions the library offers. -/
def IsLibraryBijection (f : BijHash) : Prop := f = xorshift ∨ f = multiplicative

theorem lawful_of_library {f : BijHash} (hf : IsLibraryBijection f) {w : Nat} (h1 : 1 ≤ w) (h2 : w ≤ 64) :
    LawfulBij f w := by
  rcases hf with rfl | rfl
  · exact lawful_xorshift h1 h2
  · exact lawful_multiplicative h1 h2

/-- **C03** Quotienting loses no information: with `2^b` buckets, `b < w`, and a storage type of at least
`w - b` bits, `map` succeeds, the bucket is in range, the quotient fits `remainder_width(b) = w - b`
bits, and `inv_map` returns the key. -/
theorem C03_quotient_roundtrip (f : BijHash) (hf : IsLibraryBijection f) (w b sbits : Nat)
    (h1 : 1 ≤ w) (h2 : w ≤ 64) (hb : b < w) (hs : w - b ≤ sbits) (k : Nat) (hk : k < 2 ^ w) :
    ∃ q bucket, (bijectiveHashAdapter f sbits w).map k b = .ok (q, bucket) ∧
      bucket < 2 ^ b ∧ q < 2 ^ (w - b) ∧
      (bijectiveHashAdapter f sbits w).remainderWidth b = w - b ∧
      (bijectiveHashAdapter f sbits w).invMap q bucket b = .ok k := by
  obtain ⟨q, bu, h, hbu, hq, hi⟩ := (lawful_bijective (lawful_of_library hf h1 h2) h2 hb hs).map_ok k hk
  have := bij_remainderWidth (f := f) (sbits := sbits) h2 (Nat.le_of_lt hb)
  exact ⟨q, bu, h, hbu, this ▸ hq, this, hi⟩

/-- **C03**, second half: different keys get different (quotient, bucket) pairs. -/
theorem C03_quotient_injective (f : BijHash) (hf : IsLibraryBijection f) (w b sbits : Nat)
    (h1 : 1 ≤ w) (h2 : w ≤ 64) (hb : b < w) (hs : w - b ≤ sbits) (k₁ k₂ : Nat)
    (hk₁ : k₁ < 2 ^ w) (hk₂ : k₂ < 2 ^ w)
    (h : (bijectiveHashAdapter f sbits w).map k₁ b = (bijectiveHashAdapter f sbits w).map k₂ b) : k₁ = k₂ := by
  obtain ⟨q, bu, e, _, _, _, hi⟩ := C03_quotient_roundtrip f hf w b sbits h1 h2 hb hs k₁ hk₁
  obtain ⟨q', bu', e', _, _, _, hi'⟩ := C03_quotient_roundtrip f hf w b sbits h1 h2 hb hs k₂ hk₂
  rw [e, e'] at h
  simp only [Except.ok.injEq, Prod.mk.injEq] at h
  rw [h.1, h.2, hi'] at hi
  simpa using hi.symm

example : (bijectiveHashAdapter xorshift 64 13).map 4711 4 = .ok (385, 13) ∧
    (bijectiveHashAdapter xorshift 64 13).invMap 385 13 4 = .ok 4711 := by decide +kernel

/-- **C04** The stored quotient determines the key (together with the bucket) for all keys exactly if the
storage type has at least `w - b` bits. -/
theorem C04_narrow_storage_iff (f : BijHash) (hf : IsLibraryBijection f) (w b sbits : Nat)
    (h1 : 1 ≤ w) (h2 : w ≤ 64) (hb : b < w) :
    (∀ k₁ k₂, k₁ < 2 ^ w → k₂ < 2 ^ w →
      (bijectiveHashAdapter f sbits w).map k₁ b = (bijectiveHashAdapter f sbits w).map k₂ b → k₁ = k₂)
    ↔ w - b ≤ sbits := by
  constructor
  · intro h
    apply Classical.byContradiction
    intro hlt
    obtain ⟨k₁, k₂, hk₁, hk₂, hne, he, _⟩ :=
      bij_narrow_collision (sbits := sbits) (lawful_of_library hf h1 h2) h2 hb (by omega)
    exact hne (h k₁ k₂ hk₁ hk₂ he)
  · intro hs k₁ k₂ hk₁ hk₂ h
    exact C03_quotient_injective f hf w b sbits h1 h2 hb hs k₁ k₂ hk₁ hk₂ h

/-- The README scenario: 24-bit keys with one-byte quotients need `2^16` buckets; with the 16 initial
buckets of a fresh table there are colliding keys. -/
theorem C04_readme_scenario :
    (∀ k₁ k₂, k₁ < 2 ^ 24 → k₂ < 2 ^ 24 →
      (bijectiveHashAdapter xorshift 8 24).map k₁ 16 = (bijectiveHashAdapter xorshift 8 24).map k₂ 16 → k₁ = k₂) ∧
    (∃ k₁ k₂, k₁ < 2 ^ 24 ∧ k₂ < 2 ^ 24 ∧ k₁ ≠ k₂ ∧
      (bijectiveHashAdapter xorshift 8 24).map k₁ 4 = (bijectiveHashAdapter xorshift 8 24).map k₂ 4) := by
  refine ⟨(C04_narrow_storage_iff xorshift (Or.inl rfl) 24 16 8 (by omega) (by omega) (by omega)).mpr (by omega), ?_⟩
  obtain ⟨k₁, k₂, a, b, c, d, _⟩ :=
    bij_narrow_collision (sbits := 8) (w := 24) (tb := 4) (lawful_xorshift (by omega) (by omega)) (by omega) (by omega) (by omega)
  exact ⟨k₁, k₂, a, b, c, d⟩

/-- **C05** SplitMix is injective on 64-bit integers (and stays within 64 bits). -/
theorem C05_splitMix_injective (x y : Nat) (hx : x < 2 ^ 64) (hy : y < 2 ^ 64)
    (h : splitMix x = splitMix y) : x = y := splitMix_inj hx hy h

theorem C05_splitMix_range (x : Nat) : splitMix x < 2 ^ 64 := splitMix_lt x

example : splitMix 4711 = 11568569226414401084 ∧ splitMix 4712 = 16657625605237738291 := by decide +kernel

/-- **C06** For any hash function `f`, `hash_mapping_adapter::map` gives the bucket `f(key) mod 2^b`, which
is in range, and `inv_map` recovers the key. -/
theorem C06_adapter_roundtrip (f : Nat → Nat) (kw b k : Nat) (h1 : 1 ≤ b) (h2 : b ≤ 64) :
    ∃ q bucket, (hashMappingAdapter f kw).map k b = .ok (q, bucket) ∧ bucket < 2 ^ b ∧
      bucket = f k % 2 ^ b ∧ (hashMappingAdapter f kw).invMap q bucket b = .ok k :=
  ⟨k, f k % 2 ^ b, adapter_map h1 h2, Nat.mod_lt _ (Nat.two_pow_pos b), rfl, rfl⟩

/-- **C06**, the missing case: with `2^0` buckets the mapping shifts by 64, which is undefined. -/
theorem C06_adapter_undefined_for_zero (f : Nat → Nat) (kw k : Nat) :
    (hashMappingAdapter f kw).map k 0 = .error .shift := by
  simp [hashMappingAdapter, shr64]

example : (hashMappingAdapter splitMix 64).map 4711 4 = .ok (4711, 12) := by decide +kernel

end SC
