import Verif.Table.Laws
/-!
# The hash mappings of the library meet the demands of the tables
-/
namespace SC

/-- What a table demands of `hash_mapping_t(kw)`; quotients of at most `W` bits can be stored, a cluster of `cl` buckets
is full with `maxE` entries. -/
structure HashOK (H : HashMapping) (kw W lo hi grow maxE cl : Nat) : Prop where
  kw_le : kw ≤ 64
  lo_pos : 1 ≤ lo
  hi_lt : hi < 64
  grow_le : grow ≤ hi
  mapping : ∀ tb, lo ≤ tb → tb ≤ hi → LawfulMapping H kw tb
  qw_le : ∀ tb, lo ≤ tb → tb ≤ hi → H.remainderWidth tb ≤ kw ∧ H.remainderWidth tb ≤ W
  room : ∀ tb, lo ≤ tb → grow ≤ tb → tb ≤ hi → ∀ b (ks : List Nat), ks.Nodup →
    (∀ k ∈ ks, k < 2 ^ kw ∧ ∃ q, H.map k tb = .ok (q, b)) → cl * ks.length ≤ maxE

theorem nodup_length_le : ∀ (N : Nat) (ks : List Nat), ks.Nodup → (∀ k ∈ ks, k < N) → ks.length ≤ N := by
  intro N
  induction N with
  | zero =>
    intro ks _ h
    cases ks with
    | nil => simp
    | cons k ks => exact absurd (h k (by simp)) (by omega)
  | succ N ih =>
    intro ks hn h
    have h1 := ih (ks.erase N) (hn.erase N) (by
      intro k hk
      have := hn.mem_erase_iff.mp hk
      have := h k this.2
      omega)
    have : ks.length ≤ (ks.erase N).length + 1 := by
      rw [List.length_erase]; split <;> omega
    omega

/-- pigeonhole principle -/
theorem length_le_of_inj (F : Nat → Nat) {N : Nat} {ks : List Nat} (hn : ks.Nodup) (hlt : ∀ k ∈ ks, F k < N)
    (hinj : ∀ a ∈ ks, ∀ b ∈ ks, F a = F b → a = b) : ks.length ≤ N := by
  have h1 : (ks.map F).Nodup := by
    clear hlt
    induction ks with
    | nil => simp
    | cons a ks ih =>
      rw [List.nodup_cons] at hn
      rw [List.map_cons, List.nodup_cons]
      refine ⟨?_, ih hn.2 (fun x hx y hy => hinj x (by simp [hx]) y (by simp [hy]))⟩
      intro hm
      obtain ⟨x, hx, he⟩ := List.mem_map.mp hm
      have := hinj x (by simp [hx]) a (by simp) he
      subst this
      exact hn.1 hx
  have := nodup_length_le N (ks.map F) h1 (by
    intro y hy
    obtain ⟨k, hk, rfl⟩ := List.mem_map.mp hy
    exact hlt k hk)
  simpa using this

/-- keys in one bucket have different quotients -/
theorem LawfulMapping.bucket_bound {H : HashMapping} {kw tb b : Nat} (h : LawfulMapping H kw tb) {ks : List Nat}
    (hn : ks.Nodup) (hk : ∀ k ∈ ks, k < 2 ^ kw ∧ ∃ q, H.map k tb = .ok (q, b)) :
    ks.length ≤ 2 ^ H.remainderWidth tb := by
  have hq : ∀ k, k < 2 ^ kw → ∀ q, H.map k tb = .ok (q, b) →
      (match H.map k tb with | .ok r => r.1 | .error _ => 0) = q := by
    intro k _ q hm; rw [hm]
  apply length_le_of_inj (fun k => match H.map k tb with | .ok r => r.1 | .error _ => 0) hn
  · intro k hk'
    obtain ⟨h1, q, h2⟩ := hk k hk'
    obtain ⟨q', b', h3, _, h4, _⟩ := h.map_ok k h1
    rw [h2] at h3
    have e := congrArg Prod.fst (Except.ok.inj h3)
    have e : q = q' := e
    subst e
    rw [hq k h1 q h2]; exact h4
  · intro x hx y hy he
    obtain ⟨h1, q, h2⟩ := hk x hx
    obtain ⟨g1, q', g2⟩ := hk y hy
    rw [hq x h1 q h2, hq y g1 q' g2] at he
    subst he
    obtain ⟨_, _, h3, _, _, h4⟩ := h.map_ok x h1
    obtain ⟨_, _, g3, _, _, g4⟩ := h.map_ok y g1
    rw [h2] at h3
    rw [g2] at g3
    have e1 := Except.ok.inj h3
    have e2 := Except.ok.inj g3
    rw [Prod.mk.injEq] at e1 e2
    rw [← e1.1, ← e1.2] at h4
    rw [← e2.1, ← e2.2] at g4
    rw [h4] at g4
    exact Except.ok.inj g4

/-- `bijective_hash_adapter`: `2^lo` buckets are needed for quotients to fit; a table with `2^grow` buckets has room for
all keys. -/
theorem hashOK_bijective {f : BijHash} {sbits kw W lo grow maxE cl : Nat} (hf : LawfulBij f kw) (hkw : kw ≤ 64)
    (hlo : 1 ≤ lo) (hW : kw ≤ W + lo) (hs : kw ≤ sbits + lo) (hg : grow < kw) (hlo2 : lo < kw)
    (hroom : cl * 2 ^ (kw - grow) ≤ maxE) :
    HashOK (bijectiveHashAdapter f sbits kw) kw W lo (kw - 1) grow maxE cl where
  kw_le := hkw
  lo_pos := hlo
  hi_lt := by omega
  grow_le := by omega
  mapping := fun tb h1 h2 => lawful_bijective hf hkw (by omega) (by omega)
  qw_le := fun tb h1 h2 => by rw [bij_remainderWidth hkw (by omega)]; omega
  room := by
    intro tb h1 h2 h3 b ks hn hk
    have := (lawful_bijective (sbits := sbits) hf hkw (show tb < kw by omega) (by omega)).bucket_bound hn hk
    rw [bij_remainderWidth hkw (by omega)] at this
    have h4 : 2 ^ (kw - tb) ≤ 2 ^ (kw - grow) := Nat.pow_le_pow_right (by omega) (by omega)
    exact Nat.le_trans (Nat.mul_le_mul_left _ (Nat.le_trans this h4)) hroom

theorem splitMix_room {kw tb b : Nat} (hkw : kw ≤ 64) (h1 : 1 ≤ tb) (h2 : tb ≤ 63) {ks : List Nat} (hn : ks.Nodup)
    (hk : ∀ k ∈ ks, k < 2 ^ kw ∧ ∃ q, (hashMappingAdapter splitMix kw).map k tb = .ok (q, b)) :
    ks.length ≤ 2 ^ (64 - tb) := by
  have hb : ∀ k ∈ ks, splitMix k % 2 ^ tb = b := by
    intro k hk'
    obtain ⟨_, q, hm⟩ := hk k hk'
    rw [adapter_map h1 (by omega)] at hm
    exact congrArg Prod.snd (Except.ok.inj hm)
  have hlt : ∀ k ∈ ks, k < 2 ^ 64 := fun k hk' =>
    Nat.lt_of_lt_of_le (hk k hk').1 (Nat.pow_le_pow_right (by omega) hkw)
  apply length_le_of_inj (fun k => splitMix k / 2 ^ tb) hn
  · intro k _
    exact div_lt_quot (splitMix_lt k) (by omega)
  · intro x hx y hy he
    apply splitMix_inj (hlt x hx) (hlt y hy)
    have e1 := Nat.div_add_mod (splitMix x) (2 ^ tb)
    have e2 := Nat.div_add_mod (splitMix y) (2 ^ tb)
    have he : splitMix x / 2 ^ tb = splitMix y / 2 ^ tb := he
    rw [hb x hx, he] at e1
    rw [hb y hy] at e2
    omega

/-- `hash_mapping_adapter` with `SplitMix` -/
theorem hashOK_splitMix {kw W grow maxE cl : Nat} (hkw1 : 1 ≤ kw) (hkw : kw ≤ 64) (hW : kw ≤ W) (hg : grow ≤ 63)
    (hroom : cl * 2 ^ (64 - grow) ≤ maxE) :
    HashOK (hashMappingAdapter splitMix kw) kw W 1 63 grow maxE cl where
  kw_le := hkw
  lo_pos := Nat.le_refl _
  hi_lt := by omega
  grow_le := hg
  mapping := fun tb h1 h2 => lawful_adapter hkw1 hkw h1 (by omega)
  qw_le := fun tb _ _ => ⟨Nat.le_refl _, hW⟩
  room := by
    intro tb h1 h2 h3 b ks hn hk
    have := splitMix_room hkw h1 h3 hn hk
    have h4 : 2 ^ (64 - tb) ≤ 2 ^ (64 - grow) := Nat.pow_le_pow_right (by omega) (by omega)
    exact Nat.le_trans (Nat.mul_le_mul_left _ (Nat.le_trans this h4)) hroom

/-- the logarithm of the number of buckets `reserve(n)` rounds to -/
def ceilLog (n : Nat) : Nat := if 2 ^ Nat.log2 n = n then Nat.log2 n else Nat.log2 n + 1

theorem le_pow_ceilLog {n : Nat} (h1 : 1 ≤ n) : n ≤ 2 ^ ceilLog n ∧ 2 ^ ceilLog n < 2 * n := by
  have hm1 : 2 ^ Nat.log2 n ≤ n := Nat.log2_self_le (by omega)
  have hm2 : n < 2 ^ (Nat.log2 n + 1) := Nat.lt_log2_self
  unfold ceilLog
  split
  · omega
  · rw [Nat.pow_succ] at *; omega

theorem ceilLog_le_iff {n r : Nat} (h1 : 1 ≤ n) : ceilLog n ≤ r ↔ n ≤ 2 ^ r := by
  obtain ⟨h2, h3⟩ := le_pow_ceilLog h1
  constructor
  · intro h; exact Nat.le_trans h2 (Nat.pow_le_pow_right (by omega) h)
  · intro h
    have : 2 ^ ceilLog n < 2 ^ (r + 1) := by rw [Nat.pow_succ]; omega
    have := (Nat.pow_lt_pow_iff_right (a := 2) (by omega)).mp this
    omega

theorem reserveBits_ceilLog {n : Nat} (h1 : 1 ≤ n) (h2 : n ≤ 2 ^ 63) : reserveBits n = .ok (ceilLog n) :=
  reserveBits_eq h1 (le_pow_ceilLog h1).1 (le_pow_ceilLog h1).2 (by
    have := (ceilLog_le_iff h1).mpr h2
    omega)

theorem reserveBits_zero : reserveBits 0 = .error .shift := by decide +kernel

variable {S O : Type}

/-- The parameters of the correctness argument for a table class, key width and value width. -/
theorem laws_of {g : Cfg S O} {P : Par S O} (hs : LawfulStore g.ops P.norm P.Rep P.maxE P.cl P.W (fun w v => P.normO v = P.norm w v)
      (fun d => d.qw = (g.hash P.kw).remainderWidth d.tb ∧ d.kw = P.kw ∧ d.vw = P.vw ∧ P.lo ≤ d.tb ∧ d.tb ≤ P.hi))
    (ho : LawfulOverflow g.ov P.normO P.RepO) (hh : HashOK (g.hash P.kw) P.kw P.W P.lo P.hi P.grow P.maxE P.cl)
    (hv1 : 1 ≤ P.vw) (hv2 : P.vw ≤ 64) (hb1 : 1 ≤ g.initBpg) (hb2 : g.initBpg ≤ 64) (hb3 : 1 ≤ g.rehashBpg)
    (hb4 : g.rehashBpg ≤ 64) (hn1 : ∀ x, P.norm P.vw (P.norm P.vw x) = P.norm P.vw x)
    (hn2 : ∀ x, P.normO (P.norm P.vw x) = P.norm P.vw x) (hkw : 2 ≤ P.kw)
    (hi1 : 1 ≤ g.initBuckets) (hi2 : P.ini = ceilLog (min (P.kw - 1) g.initBuckets)) (hi3 : P.lo ≤ P.ini)
    (hi4 : P.ini ≤ P.hi) (hst0 : g.stale g.noStore = false := by rfl)
    (hst1 : P.one = true → ∀ s, g.stale s = false := by intro _ _; rfl) : Laws g P where
  store := hs
  ovf := ho.weaken
  fresh := hst0
  never := hst1
  kw_le := hh.kw_le
  vw_pos := hv1
  vw_le := hv2
  ibpg_pos := hb1
  ibpg_le := hb2
  rbpg_pos := hb3
  rbpg_le := hb4
  norm_idem := hn1
  normO_norm := hn2
  lo_pos := hh.lo_pos
  hi_lt := hh.hi_lt
  mapping := hh.mapping
  qw_le := hh.qw_le
  init := ⟨by
    rw [hi2]
    exact reserveBits_ceilLog (by omega) (by have := hh.kw_le; have : (64 : Nat) ≤ 2 ^ 63 := by decide
                                             omega), hi3, hi4⟩
  grow_le := hh.grow_le
  room := hh.room

end SC
