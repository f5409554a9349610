import Verif.Table.Kinds
/-!
# The hash functions of a debug build

The functions of bijective_hash.hpp and hash.hpp with the assertions of a build without `NDEBUG`.
-/
namespace SC

/-- `DDCHECK_LE(x, mask())`, bijective_hash.hpp:93, 101, 123, 149, 154 -/
def maskCheck (bits x : Nat) : Res Unit := do
  let m ← hashMask bits
  ddcheck true (x ≤ m)

/-- `Xorshift::hash`, bijective_hash.hpp:92-98, with the assertions of lines 93 and 123 -/
def dbgXorshiftHash (bits x : Nat) : Res Nat := do
  maskCheck bits x
  maskCheck bits x
  let x ← xorshiftStage bits 0 x
  maskCheck bits x
  let x ← xorshiftStage bits 1 x
  maskCheck bits x
  let x ← xorshiftStage bits 2 x
  return x

/-- `Xorshift::hash_inv`, bijective_hash.hpp:100-106, with the assertion of line 101 -/
def dbgXorshiftHashInv (bits x : Nat) : Res Nat := do
  maskCheck bits x
  xorshiftHashInv bits x

/-- `MultiplicativeHash::hash`, bijective_hash.hpp:148-151 -/
def dbgMultHash (bits x : Nat) : Res Nat := do
  maskCheck bits x
  multHash bits x

/-- `MultiplicativeHash::hash_inv`, bijective_hash.hpp:153-156 -/
def dbgMultHashInv (bits x : Nat) : Res Nat := do
  maskCheck bits x
  multHashInv bits x

/-- `bijective_hash::Xorshift` in a debug build -/
def dbgXorshift : BijHash := ⟨dbgXorshiftHash, dbgXorshiftHashInv⟩
/-- `bijective_hash::MultiplicativeHash` in a debug build -/
def dbgMultiplicative : BijHash := ⟨dbgMultHash, dbgMultHashInv⟩

/-- The constructors of the two functions, bijective_hash.hpp:83-89, 139-145 -/
def dbgBijNew (bits : Nat) : Res Unit := do
  ddcheck true (0 < bits)
  ddcheck true (bits ≤ 64)
  let m ← hashMask bits
  ddcheck true (0 < m)

/-- `bijective_hash_adapter` in a debug build, hash.hpp:44-73; `std::make_pair(hash_value >> table_buckets, ...)` is not
narrowed before line 67 tests `inv_map(ret.first, ...)`, whose first parameter is a `storage_type`.  The assertion of
`remainder_width` (line 57) is executed by the callers. -/
def dbgBijectiveHashAdapter (f : BijHash) (sbits : Nat) (width : Nat) : HashMapping where
  remainderWidth := fun tb => (width + 256 - tb) % 256
  map := fun key tb => do
    let h ← f.hash width key
    let k ← f.hashInv width h
    ddcheck true (k = key)
    let q ← shr64 h tb
    ddcheck true (q ≤ 2 ^ sbits - 1)
    let one ← shl64 1 tb
    let b := h &&& ((one + W64 - 1) % W64)
    let r ← shl64 (q % 2 ^ sbits) tb
    let k ← f.hashInv width ((r + b) % W64)
    ddcheck true (k = key)
    return (q % 2 ^ sbits, b)
  invMap := fun r h tb => do
    let r ← shl64 r tb
    f.hashInv width ((r + h) % W64)

/-- `hash_mapping_t(key_width)` in a debug build; `hash_mapping_adapter` contains no assertions -/
def HashKind.dbgMapping : HashKind → Nat → HashMapping
  | .xorshift sbits, kw => dbgBijectiveHashAdapter dbgXorshift sbits kw
  | .multiplicative sbits, kw => dbgBijectiveHashAdapter dbgMultiplicative sbits kw
  | .splitMix, kw => hashMappingAdapter SC.splitMix kw

/-- the assertion of `remainder_width`, hash.hpp:57 -/
def HashKind.remOK : HashKind → (kw tb : Nat) → Bool
  | .splitMix, _, _ => true
  | _, kw, tb => decide (tb < kw)

/-- the assertions of the constructor of the hash function -/
def HashKind.dbgNew : HashKind → (kw : Nat) → Res Unit
  | .splitMix, _ => .ok ()
  | _, kw => dbgBijNew kw

/-! ## no assertion fails for valid keys -/

theorem maskCheck_ok {bits x : Nat} (h1 : 1 ≤ bits) (h2 : bits ≤ 64) (hx : x < 2 ^ bits) : maskCheck bits x = .ok () := by
  unfold maskCheck
  rw [hashMask_eq h1 h2, ok_bind, ddcheck_ok (by omega)]

theorem lawful_dbgXorshift {w : Nat} (h1 : 1 ≤ w) (h2 : w ≤ 64) : LawfulBij dbgXorshift w := by
  have L := lawful_xorshift h1 h2
  have hash_eq : ∀ x, x < 2 ^ w → dbgXorshift.hash w x = xorshift.hash w x := by
    intro x hx
    obtain ⟨a, ha, hla, _⟩ := xorshift_stage_facts h1 h2 0 hx
    obtain ⟨b, hb, hlb, _⟩ := xorshift_stage_facts h1 h2 1 hla
    simp only [Fin.val_zero, Fin.val_one] at *
    simp only [dbgXorshift, xorshift, dbgXorshiftHash, xorshiftHash, maskCheck_ok h1 h2 hx, ha, ok_bind,
      maskCheck_ok h1 h2 hla, hb, maskCheck_ok h1 h2 hlb]
  have inv_eq : ∀ x, x < 2 ^ w → dbgXorshift.hashInv w x = xorshift.hashInv w x := by
    intro x hx
    simp only [dbgXorshift, xorshift, dbgXorshiftHashInv, maskCheck_ok h1 h2 hx, ok_bind]
  constructor
  · intro x hx
    obtain ⟨y, e1, e2, e3⟩ := L.left x hx
    exact ⟨y, by rw [hash_eq x hx]; exact e1, e2, by rw [inv_eq y e2]; exact e3⟩
  · intro y hy
    obtain ⟨x, e1, e2, e3⟩ := L.right y hy
    exact ⟨x, by rw [inv_eq y hy]; exact e1, e2, by rw [hash_eq x e2]; exact e3⟩

theorem lawful_dbgMultiplicative {w : Nat} (h1 : 1 ≤ w) (h2 : w ≤ 64) : LawfulBij dbgMultiplicative w := by
  have L := lawful_multiplicative h1 h2
  have hash_eq : ∀ x, x < 2 ^ w → dbgMultiplicative.hash w x = multiplicative.hash w x := by
    intro x hx
    simp only [dbgMultiplicative, multiplicative, dbgMultHash, maskCheck_ok h1 h2 hx, ok_bind]
  have inv_eq : ∀ x, x < 2 ^ w → dbgMultiplicative.hashInv w x = multiplicative.hashInv w x := by
    intro x hx
    simp only [dbgMultiplicative, multiplicative, dbgMultHashInv, maskCheck_ok h1 h2 hx, ok_bind]
  constructor
  · intro x hx
    obtain ⟨y, e1, e2, e3⟩ := L.left x hx
    exact ⟨y, by rw [hash_eq x hx]; exact e1, e2, by rw [inv_eq y e2]; exact e3⟩
  · intro y hy
    obtain ⟨x, e1, e2, e3⟩ := L.right y hy
    exact ⟨x, by rw [inv_eq y hy]; exact e1, e2, by rw [hash_eq x e2]; exact e3⟩

/-- on valid keys the adapter of a debug build computes what the adapter of the release build computes -/
theorem dbg_map_eq {f : BijHash} {sbits w tb k : Nat} (hf : LawfulBij f w) (hw : w ≤ 64) (htb : tb < w)
    (hs : w - tb ≤ sbits) (hk : k < 2 ^ w) :
    (dbgBijectiveHashAdapter f sbits w).map k tb = (bijectiveHashAdapter f sbits w).map k tb := by
  obtain ⟨h, e1, e2, e3⟩ := hf.left k hk
  have hq := div_lt_quot e2 (Nat.le_of_lt htb)
  have hq' : h / 2 ^ tb < 2 ^ sbits := Nat.lt_of_lt_of_le hq (Nat.pow_le_pow_right (by omega) hs)
  have hqs : h / 2 ^ tb % 2 ^ sbits = h / 2 ^ tb := Nat.mod_eq_of_lt hq'
  have h64 : h < 2 ^ 64 := Nat.lt_of_lt_of_le e2 (Nat.pow_le_pow_right (by omega) hw)
  have a1 : (1 <<< tb) % W64 = 2 ^ tb := by
    rw [Nat.shiftLeft_eq, Nat.one_mul]
    exact Nat.mod_eq_of_lt (Nat.pow_lt_pow_right (by omega) (by omega))
  have a2 : (2 ^ tb + W64 - 1) % W64 = 2 ^ tb - 1 := by
    have : 2 ^ tb < W64 := Nat.pow_lt_pow_right (by omega) (by omega)
    have h0 := Nat.two_pow_pos tb
    rw [show 2 ^ tb + W64 - 1 = (2 ^ tb - 1) + W64 by omega, Nat.add_mod_right]
    exact Nat.mod_eq_of_lt (by omega)
  have e0 : h / 2 ^ tb * 2 ^ tb + h % 2 ^ tb = h := by rw [Nat.mul_comm]; exact Nat.div_add_mod h (2 ^ tb)
  have a3 : ((h / 2 ^ tb) <<< tb) % W64 = h / 2 ^ tb * 2 ^ tb := by
    rw [Nat.shiftLeft_eq]; exact Nat.mod_eq_of_lt (show _ < 2 ^ 64 by omega)
  rw [bij_map (by omega) e1]
  simp only [dbgBijectiveHashAdapter, e1, e3, ddcheck_ok, ok_bind, shr64, shl64, show tb < 64 by omega, if_true,
    Nat.shiftRight_eq_div_pow, ddcheck_ok (show h / 2 ^ tb ≤ 2 ^ sbits - 1 by omega), a1, a2, hqs, a3,
    Nat.and_two_pow_sub_one_eq_mod, e0, Nat.mod_eq_of_lt (show h < W64 from h64), pure_eq_ok]

theorem lawful_dbgBijective {f : BijHash} {sbits w tb : Nat} (hf : LawfulBij f w) (hw : w ≤ 64)
    (htb : tb < w) (hs : w - tb ≤ sbits) :
    LawfulMapping (dbgBijectiveHashAdapter f sbits w) w tb where
  map_ok := by
    intro k hk
    rw [dbg_map_eq hf hw htb hs hk]
    exact (lawful_bijective hf hw htb hs).map_ok k hk
  width_pos := (lawful_bijective (sbits := sbits) hf hw htb hs).width_pos
  width_le := (lawful_bijective (sbits := sbits) hf hw htb hs).width_le

theorem hashOK_dbg {f : BijHash} {sbits kw W lo hi grow maxE cl : Nat} (hf : LawfulBij f kw) (hhi : hi < kw)
    (hs : kw ≤ sbits + lo)
    (h : HashOK (bijectiveHashAdapter f sbits kw) kw W lo hi grow maxE cl) :
    HashOK (dbgBijectiveHashAdapter f sbits kw) kw W lo hi grow maxE cl where
  kw_le := h.kw_le
  lo_pos := h.lo_pos
  hi_lt := h.hi_lt
  grow_le := h.grow_le
  mapping := fun tb h1 h2 => lawful_dbgBijective hf h.kw_le (by omega) (by omega)
  qw_le := h.qw_le
  room := by
    intro tb h1 h2 h3 b ks hn hk
    refine h.room tb h1 h2 h3 b ks hn (fun k hm => ⟨(hk k hm).1, ?_⟩)
    obtain ⟨q, hq⟩ := (hk k hm).2
    exact ⟨q, by rw [← dbg_map_eq hf h.kw_le (by omega) (by omega) (hk k hm).1]; exact hq⟩

/-- what the storage of a debug build needs of the hash function -/
structure HashInv (H : HashMapping) (kw tb : Nat) : Prop where
  inv : ∀ q b, q < 2 ^ H.remainderWidth tb → b < 2 ^ tb → ∃ k, H.invMap q b tb = .ok k ∧ k < 2 ^ kw

theorem hashInv_dbg {f : BijHash} {sbits kw tb : Nat} (hf : LawfulBij f kw) (hw : kw ≤ 64) (htb : tb < kw) :
    HashInv (dbgBijectiveHashAdapter f sbits kw) kw tb where
  inv := by
    intro q b hq hb
    have hr : (dbgBijectiveHashAdapter f sbits kw).remainderWidth tb = kw - tb := bij_remainderWidth (f := f) (sbits := sbits) hw (by omega)
    rw [hr] at hq
    have hlt : q * 2 ^ tb + b < 2 ^ kw := by
      have e : 2 ^ kw = 2 ^ (kw - tb) * 2 ^ tb := by rw [← Nat.pow_add]; congr 1; omega
      rw [e]
      have : (q + 1) * 2 ^ tb ≤ 2 ^ (kw - tb) * 2 ^ tb := Nat.mul_le_mul_right _ hq
      rw [Nat.succ_mul] at this
      omega
    have h64 : q * 2 ^ tb + b < W64 := Nat.lt_of_lt_of_le hlt (Nat.pow_le_pow_right (by omega) hw)
    obtain ⟨k, e1, e2, _⟩ := hf.right _ hlt
    refine ⟨k, ?_, e2⟩
    simp only [dbgBijectiveHashAdapter, shl64, show tb < 64 by omega, if_true, ok_bind, Nat.shiftLeft_eq]
    rw [Nat.mod_eq_of_lt (show q * 2 ^ tb < W64 by omega), Nat.mod_eq_of_lt h64]
    exact e1

theorem HashKind.remainder_dbg (hk : HashKind) (kw tb : Nat) :
    (hk.dbgMapping kw).remainderWidth tb = (hk.mapping kw).remainderWidth tb := by cases hk <;> rfl

/-- The mappings of a debug build meet the same demands. -/
theorem HashKind.dbgHashOK {hk : HashKind} {kw W ini maxE cl : Nat} (h : hk.Supports kw W ini) (hini1 : 1 ≤ ini)
    (hini2 : ini < kw) (hcl : 1 ≤ cl) (hm : 2 * cl ≤ maxE) :
    HashOK (hk.dbgMapping kw) kw W (hk.lo kw W) (hk.width kw - 1) (hk.grow kw maxE cl) maxE cl ∧
      (∀ tb, hk.lo kw W ≤ tb → tb ≤ hk.width kw - 1 → HashInv (hk.dbgMapping kw) kw tb ∧ hk.remOK kw tb = true) ∧
      hk.dbgNew kw = .ok () := by
  have hdiv : 2 ≤ maxE / cl := (Nat.le_div_iff_mul_le (by omega)).mpr (by omega)
  have hl1 : 2 ^ Nat.log2 (maxE / cl) ≤ maxE / cl := Nat.log2_self_le (by omega)
  have hl : 1 ≤ Nat.log2 (maxE / cl) := by
    rcases Nat.eq_zero_or_pos (Nat.log2 (maxE / cl)) with h | h
    · have := Nat.lt_log2_self (n := maxE / cl); rw [h] at this; omega
    · exact h
  have hr : cl * 2 ^ Nat.log2 (maxE / cl) ≤ maxE :=
    Nat.le_trans (Nat.mul_le_mul_left _ hl1) (Nat.mul_div_le maxE cl)
  have hroom : ∀ w, cl * 2 ^ (w - (w - Nat.log2 (maxE / cl))) ≤ maxE := by
    intro w
    refine Nat.le_trans (Nat.mul_le_mul_left _ (Nat.pow_le_pow_right (by omega) ?_)) hr
    omega
  have hnew : 1 ≤ kw → kw ≤ 64 → dbgBijNew kw = .ok () := by
    intro h1 h2
    unfold dbgBijNew
    have : 2 ≤ 2 ^ kw := Nat.pow_le_pow_right (n := 2) (by omega) h1
    rw [ddcheck_ok (show 0 < kw by omega), ok_bind, ddcheck_ok h2, ok_bind, hashMask_eq h1 h2, ok_bind,
      ddcheck_ok (by omega)]
  have main := hk.hashOK h hini1 hini2 hcl hm
  cases hk with
  | xorshift sbits =>
    obtain ⟨h1, h2, h3, h4⟩ := h
    have hf := lawful_dbgXorshift (show 1 ≤ kw by omega) h2
    refine ⟨hashOK_dbg hf ?_ ?_ (hashOK_bijective hf h2 (Nat.le_max_left _ _) ?_ ?_ ?_ ?_ (hroom kw)),
      fun tb _ (ht : tb ≤ kw - 1) => ⟨hashInv_dbg hf h2 (by omega), decide_eq_true (by omega)⟩, hnew (by omega) h2⟩ <;>
      simp only [HashKind.lo, HashKind.width, HashKind.grow] <;> omega
  | multiplicative sbits =>
    obtain ⟨h1, h2, h3, h4⟩ := h
    have hf := lawful_dbgMultiplicative (show 1 ≤ kw by omega) h2
    refine ⟨hashOK_dbg hf ?_ ?_ (hashOK_bijective hf h2 (Nat.le_max_left _ _) ?_ ?_ ?_ ?_ (hroom kw)),
      fun tb _ (ht : tb ≤ kw - 1) => ⟨hashInv_dbg hf h2 (by omega), decide_eq_true (by omega)⟩, hnew (by omega) h2⟩ <;>
      simp only [HashKind.lo, HashKind.width, HashKind.grow] <;> omega
  | splitMix =>
    exact ⟨main.1, fun tb _ _ => ⟨⟨fun q b hq _ => ⟨q, rfl, hq⟩⟩, rfl⟩, rfl⟩

end SC
