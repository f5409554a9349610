import Verif.Own.Keys
import Verif.Table.Kinds
/-!
# The hash functions of the library spread the keys
-/
namespace SC.Own

/-- the same hash function with quotients that are wide enough; the bucket does not depend on the type of the quotients -/
def _root_.SC.HashKind.wide : HashKind → HashKind
  | .xorshift _ => .xorshift 64
  | .multiplicative _ => .multiplicative 64
  | .splitMix => .splitMix

/-- The bucket of a key in a table with `2 ^ lg` buckets, `m_hash.map(key, m_buckets).second`.  (A table with one bucket counts as a table without
buckets, its hash function is not called.) -/
def _root_.SC.HashKind.place (hk : HashKind) (kw lg k : Nat) : Nat := if lg = 0 then 0 else match (hk.wide.mapping kw).map k lg with
  | .ok r => r.2
  | .error _ => 0

/-- Programs that use keys of `kw` bits and tables that are not larger than the range of the hash function; all calls have to return. -/
def _root_.SC.HashKind.keys (hk : HashKind) (kw : Nat) : Keys := ⟨(· < 2 ^ kw), hk.width kw - 1, True⟩

/-- this is the bucket that the tables use -/
theorem place_eq {hk : HashKind} {kw lg k q b : Nat} (h0 : lg ≠ 0) (h : (hk.mapping kw).map k lg = .ok (q, b)) : hk.place kw lg k = b := by
  have hb : ∀ (f : BijHash) (s : Nat), (bijectiveHashAdapter f s kw).map k lg = .ok (q, b) → ∃ q', (bijectiveHashAdapter f 64 kw).map k lg = .ok (q', b) := by
    intro f s h
    simp only [bijectiveHashAdapter] at h ⊢
    obtain ⟨x, x1, x2⟩ := bind_eq_ok h
    obtain ⟨y, y1, y2⟩ := bind_eq_ok x2
    obtain ⟨m, m1, m2⟩ := bind_eq_ok y2
    cases m2
    rw [x1, ok_bind, y1, ok_bind, m1, ok_bind]
    exact ⟨_, rfl⟩
  unfold HashKind.place
  rw [if_neg h0]
  cases hk with
  | xorshift s =>
    obtain ⟨q', e⟩ := hb _ s h
    rw [show (HashKind.wide (.xorshift s)).mapping kw = bijectiveHashAdapter SC.xorshift 64 kw from rfl, e]
  | multiplicative s =>
    obtain ⟨q', e⟩ := hb _ s h
    rw [show (HashKind.wide (.multiplicative s)).mapping kw = bijectiveHashAdapter SC.multiplicative 64 kw from rfl, e]
  | splitMix =>
    rw [show (HashKind.wide .splitMix).mapping kw = (HashKind.splitMix).mapping kw from rfl, h]

theorem wide_ok (hk : HashKind) {kw maxE : Nat} (h3 : 3 ≤ kw) (h64 : kw ≤ 64) (hm : 2 ≤ maxE) :
    HashOK (hk.wide.mapping kw) kw 64 1 (hk.width kw - 1) (hk.wide.grow kw maxE 1) maxE 1 := by
  have hs : hk.wide.Supports kw 64 1 := by
    cases hk
    · exact ⟨h3, h64, by omega, by omega⟩
    · exact ⟨h3, h64, by omega, by omega⟩
    · exact ⟨h3, h64, h64⟩
  have := (HashKind.hashOK hs (Nat.le_refl 1) (by omega) (Nat.le_refl 1) (maxE := maxE) (by omega)).1
  have e1 : hk.wide.lo kw 64 = 1 := by
    cases hk
    · show max 1 (kw - min 64 64) = 1
      omega
    · show max 1 (kw - min 64 64) = 1
      omega
    · rfl
  have e2 : hk.wide.width kw = hk.width kw := by cases hk <;> rfl
  rwa [e1, e2] at this

theorem keys_top (hk : HashKind) {kw : Nat} (h3 : 3 ≤ kw) (h64 : kw ≤ 64) : kw - 1 ≤ (hk.keys kw).top ∧ (hk.keys kw).top ≤ 63 := by
  cases hk <;> simp only [HashKind.keys, HashKind.width] <;> omega

theorem keys_limit (hk : HashKind) {kw : Nat} (h3 : 3 ≤ kw) (h64 : kw ≤ 64) : (hk.keys kw).Limit := ⟨(keys_top hk h3 h64).2, fun h => absurd trivial h⟩

theorem place_lt (hk : HashKind) {kw : Nat} (h3 : 3 ≤ kw) (h64 : kw ≤ 64) {lg k : Nat} (hlg : lg ≤ (hk.keys kw).top) (hk' : k < 2 ^ kw) :
    hk.place kw lg k < 2 ^ lg := by
  unfold HashKind.place
  by_cases h0 : lg = 0
  · rw [if_pos h0]; exact Nat.two_pow_pos _
  · rw [if_neg h0]
    obtain ⟨q, b, e, hb, _⟩ := ((wide_ok hk h3 h64 (Nat.le_refl 2)).mapping lg (by omega) hlg).map_ok k hk'
    rw [e]
    exact hb

/-- with the greatest number of buckets at most two keys fall into a bucket -/
theorem place_spread (hk : HashKind) {kw : Nat} (h3 : 3 ≤ kw) (h64 : kw ≤ 64) : Spread (hk.place kw (hk.keys kw).top) (hk.keys kw).key 2 := by
  intro b xs hn hx
  have ok := wide_ok hk h3 h64 (Nat.le_refl 2)
  have ht := keys_top hk h3 h64
  have := ok.room (hk.keys kw).top (by omega) ok.grow_le (Nat.le_refl _) b xs hn (fun k hk' => ⟨(hx k hk').1, ?_⟩)
  · omega
  · obtain ⟨q, b', e, _⟩ := (ok.mapping (hk.keys kw).top (by omega) (Nat.le_refl _)).map_ok k (hx k hk').1
    have := (hx k hk').2
    unfold HashKind.place at this
    rw [if_neg (by omega), e] at this
    exact ⟨q, by rw [e, ← this]⟩

theorem Spread.mono {place : Nat → Nat} {key : Nat → Prop} {m m' : Nat} (h : Spread place key m) (hm : m ≤ m') : Spread place key m' :=
  fun b xs hn hx => Nat.le_trans (h b xs hn hx) hm

theorem spread_range {place : Nat → Nat} {key : Nat → Prop} {m : Nat} (h : Spread place key m) (lo : Nat) : ∀ (w : Nat) (xs : List Nat), xs.Nodup →
    (∀ x ∈ xs, key x ∧ lo ≤ place x ∧ place x < lo + w) → xs.length ≤ w * m := by
  intro w
  induction w with
  | zero =>
    intro xs _ hx
    cases xs with
    | nil => simp
    | cons x xs => have := hx x List.mem_cons_self; omega
  | succ w ih =>
    intro xs hn hx
    have e := List.length_eq_length_filter_add (l := xs) (fun x => decide (place x = lo + w))
    have h1 := h (lo + w) (xs.filter (fun x => decide (place x = lo + w))) (hn.filter _) (fun x hx' => by
      obtain ⟨a, b⟩ := List.mem_filter.mp hx'
      exact ⟨(hx x a).1, of_decide_eq_true b⟩)
    have h2 := ih (xs.filter (fun x => !decide (place x = lo + w))) (hn.filter _) (fun x hx' => by
      obtain ⟨a, b⟩ := List.mem_filter.mp hx'
      obtain ⟨c1, c2, c3⟩ := hx x a
      simp only [Bool.not_eq_true', decide_eq_false_iff_not] at b
      exact ⟨c1, c2, by omega⟩)
    rw [Nat.succ_mul]
    omega

/-- a group of `w` buckets gets `w` times as many keys -/
theorem Spread.group {place : Nat → Nat} {key : Nat → Prop} {m : Nat} (h : Spread place key m) {w : Nat} (hw : 0 < w) :
    Spread (fun k => place k / w) key (w * m) := by
  intro b xs hn hx
  refine spread_range h (b * w) w xs hn (fun x hx' => ⟨(hx x hx').1, ?_⟩)
  have := (hx x hx').2
  simp only at this
  subst this
  have h1 := Nat.div_mul_le_self (place x) w
  have h2 := Nat.mod_add_div (place x) w
  have h3 := Nat.mod_lt (place x) hw
  rw [Nat.mul_comm w] at h2
  omega

end SC.Own
