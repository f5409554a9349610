import Verif.BucketTable.Model
import Verif.Bucket.PlainLemmas
import Verif.Bucket.VarwidthLemmas
import Verif.Bucket.Run
import Verif.Bucket.Debug
import Verif.Bucket.Copy
import Verif.Table.Run
/-!
# `bucket_table`: proofs
-/
namespace SC
variable {A VB : Type}

/-- Further properties of buckets: a bucket with a meaning is initialized, `clear` resets it, and the last entries can be forgotten. -/
structure LawfulOpt (ops : BucketOps A) (null : A → Bool) (Rep : A → Nat → Nat → List Nat → Prop) : Prop where
  empty : null ops.empty = true
  clear : ∀ b, null (ops.clear b) = true
  some : ∀ b w cap xs, Rep b w cap xs → null b = false
  take : ∀ b w cap xs n, Rep b w cap xs → Rep b w cap (xs.take n)

theorem PlainRep.take {s : Nat} {b : PlainB} {w cap : Nat} {xs : List Nat} (n : Nat) (h : PlainRep s b w cap xs) :
    PlainRep s b w cap (xs.take n) := by
  obtain ⟨rest, rfl, h2, h3⟩ := h
  refine ⟨(xs.drop n).map some ++ rest, ?_, ?_, fun x hx => h3 x (List.mem_of_mem_take hx)⟩
  · rw [← List.append_assoc, ← List.map_append, List.take_append_drop]
  · simp; omega

theorem VarRep.take {c : VarCfg} {b : VarB} {w cap : Nat} {xs : List Nat} (n : Nat) (h : VarRep c b w cap xs) :
    VarRep c b w cap (xs.take n) := by
  obtain ⟨m, h1, h2, h3, h4, h5⟩ := h
  refine ⟨m, h1, h2, h3, by simp; omega, ?_⟩
  intro i hi
  simp only [List.length_take] at hi
  rw [List.getElem_take]
  exact h5 i (by omega)

/-- the bucket classes usable for keys; also `varwidth_bucket` without any access beyond a block, because `erase` is not used -/
inductive IsBtKey : (A : Type) → BucketOps A → (A → Bool) → (W : Nat) → Prop
  | plain {s : Nat} (h : s = 8 ∨ s = 16 ∨ s = 32 ∨ s = 64) : IsBtKey PlainB (plainOps s) Option.isNone s
  | class {s : Nat} (h : s = 8 ∨ s = 16 ∨ s = 32 ∨ s = 64) : IsBtKey PlainB (classOps s) Option.isNone s
  | avx {s : Nat} (h : s = 8 ∨ s = 16 ∨ s = 32 ∨ s = 64) : IsBtKey PlainB (avxOps s) Option.isNone s
  | varwidth {c : VarCfg} (h : c.good) : IsBtKey VarB (varOps c) Option.isNone 64

/-- the bucket classes usable for values, over a type of `s` bits -/
inductive IsBtVal : BucketOps PlainB → (PlainB → Bool) → (s : Nat) → Prop
  | plain {s : Nat} (h : s = 8 ∨ s = 16 ∨ s = 32 ∨ s = 64) : IsBtVal (plainOps s) Option.isNone s
  | class {s : Nat} (h : s = 8 ∨ s = 16 ∨ s = 32 ∨ s = 64) : IsBtVal (classOps s) Option.isNone s

/-- the key buckets of a debug build -/
inductive IsBtDbgKey : (A : Type) → BucketOps A → (A → Bool) → (W : Nat) → Prop
  | plain {s j : Nat} (h : s = 8 ∨ s = 16 ∨ s = 32 ∨ s = 64) : IsBtDbgKey (DbgB PlainB) (dbgOps (dbgPlain s j)) (fun b => b.data.isNone) s
  | class {s j : Nat} (h : s = 8 ∨ s = 16 ∨ s = 32 ∨ s = 64) : IsBtDbgKey (DbgB PlainB) (dbgOps (dbgClass s j)) (fun b => b.data.isNone) s
  | avx {s j : Nat} (h : s = 8 ∨ s = 16 ∨ s = 32 ∨ s = 64) : IsBtDbgKey (DbgB PlainB) (dbgOps (dbgAvx s j)) (fun b => b.data.isNone) s
  | varwidth {c : VarCfg} {j : Nat} (h : c.good) : IsBtDbgKey (DbgB VarB) (dbgOps (dbgVar c j)) (fun b => b.data.isNone) 64

/-- the value buckets of a debug build -/
inductive IsBtDbgVal : BucketOps (DbgB PlainB) → (DbgB PlainB → Bool) → (s : Nat) → Prop
  | plain {s j : Nat} (h : s = 8 ∨ s = 16 ∨ s = 32 ∨ s = 64) : IsBtDbgVal (dbgOps (dbgPlain s j)) (fun b => b.data.isNone) s
  | class {s j : Nat} (h : s = 8 ∨ s = 16 ∨ s = 32 ∨ s = 64) : IsBtDbgVal (dbgOps (dbgClass s j)) (fun b => b.data.isNone) s

/-- the meaning of a key bucket for keys of at most `W` bits -/
structure BtKeyLaws (ops : BucketOps A) (null : A → Bool) (W : Nat) (norm : Nat → Nat → Nat) (Rep : A → Nat → Nat → List Nat → Prop)
    (spare : Bool) (ok : Nat → Nat → Prop) : Prop where
  core : LawfulCore ops norm Rep spare ok
  find : LawfulFind ops norm Rep
  opt : LawfulOpt ops null Rep
  norm : ∀ w x, w ≤ W → x < 2 ^ w → norm w x = x
  ok : ∀ w x, w ≤ W → x < 2 ^ w → ok w x

/-- the meaning of a value bucket for values of `s` bits -/
structure BtValLaws (ops : BucketOps VB) (null : VB → Bool) (s : Nat) (Rep : VB → Nat → Nat → List Nat → Prop)
    (ok : Nat → Nat → Prop) : Prop where
  core : LawfulCore ops (fun _ x => x % 2 ^ s) Rep false ok
  opt : LawfulOpt ops null Rep
  ok : ∀ w x, ok w x
  lt : ∀ b w cap xs, Rep b w cap xs → ∀ x ∈ xs, x < 2 ^ s

theorem bits8 {s : Nat} (h : s = 8 ∨ s = 16 ∨ s = 32 ∨ s = 64) : 8 ∣ s := by
  rcases h with h | h | h | h <;> subst h <;> decide

theorem mod_fits (s : Nat) : ∀ w x, w ≤ s → x < 2 ^ w → x % 2 ^ s = x := fun _ _ h1 h2 =>
  Nat.mod_eq_of_lt (Nat.lt_of_lt_of_le h2 (Nat.pow_le_pow_right (by omega) h1))

theorem IsBtKey.lawful {ops : BucketOps A} {null : A → Bool} {W : Nat} (h : IsBtKey A ops null W) :
    ∃ norm Rep spare ok, BtKeyLaws ops null W norm Rep spare ok := by
  cases h with
  | plain hs => exact ⟨_, _, _, _, (lawful_plain (bits8 hs)).toLawfulCore, lawful_plain_find _, ⟨rfl, fun _ => rfl,
      fun b w cap xs h => plainRep_data h, fun b w cap xs n h => h.take n⟩, mod_fits _, fun _ _ _ _ => trivial⟩
  | «class» hs => exact ⟨_, _, _, _, (lawful_class (bits8 hs)).toLawfulCore, lawful_class_find _, ⟨rfl, fun _ => rfl,
      fun b w cap xs h => plainRep_data h, fun b w cap xs n h => h.take n⟩, mod_fits _, fun _ _ _ _ => trivial⟩
  | avx hs => exact ⟨_, _, _, _, (lawful_avx hs).toLawfulCore, lawful_avx_find hs, ⟨rfl, fun _ => rfl,
      fun b w cap xs h => plainRep_data h, fun b w cap xs n h => h.take n⟩, mod_fits _, fun _ _ _ _ => trivial⟩
  | varwidth hc => exact ⟨_, _, _, _, (lawful_var_strict hc).toLawfulCore, lawful_var_find hc, ⟨rfl, fun _ => rfl,
      fun b w cap xs ⟨r, h, _⟩ => by rw [h]; rfl, fun b w cap xs n h => h.take n⟩, fun w x _ h => Nat.mod_eq_of_lt h, fun _ _ _ _ => trivial⟩

theorem btKeyLaws_dbg {B : Type} {c : DbgCfg B} {W : Nat} {norm : Nat → Nat → Nat} {Rep : B → Nat → Nat → List Nat → Prop} {spare : Bool}
    (L : LawfulCore c.ops norm Rep spare) (F : LawfulFind c.ops norm Rep) (O : LawfulOpt c.ops c.isNull Rep) (hc : DbgOK c norm Rep)
    (hn : ∀ w x, w ≤ W → x < 2 ^ w → norm w x = x) :
    BtKeyLaws (dbgOps c) (fun b => c.isNull b.data) W norm (DbgRep c Rep) spare (fun w x => c.block.isSome = true → x < 2 ^ w) where
  core := lawful_dbg L hc
  find := lawful_dbg_find L F
  opt := ⟨O.empty, fun b => O.clear b.data, fun _ _ _ _ h => O.some _ _ _ _ h.1, fun _ _ _ _ n h => ⟨O.take _ _ _ _ n h.1, h.2⟩⟩
  norm := hn
  ok := fun _ _ _ h _ => h

theorem IsBtDbgKey.lawful {ops : BucketOps A} {null : A → Bool} {W : Nat} (h : IsBtDbgKey A ops null W) :
    ∃ norm Rep spare ok, BtKeyLaws ops null W norm Rep spare ok := by
  cases h with
  | plain hs => exact ⟨_, _, _, _, btKeyLaws_dbg (c := dbgPlain _ _) (lawful_plain (bits8 hs)).toLawfulCore (lawful_plain_find _) ⟨rfl, fun _ => rfl,
      fun b w cap xs h => plainRep_data h, fun b w cap xs n h => h.take n⟩ (dbgPlain_ok _ _) (mod_fits _)⟩
  | «class» hs => exact ⟨_, _, _, _, btKeyLaws_dbg (c := dbgClass _ _) (lawful_class (bits8 hs)).toLawfulCore (lawful_class_find _) ⟨rfl, fun _ => rfl,
      fun b w cap xs h => plainRep_data h, fun b w cap xs n h => h.take n⟩ (dbgClass_ok _ _) (mod_fits _)⟩
  | avx hs => exact ⟨_, _, _, _, btKeyLaws_dbg (c := dbgAvx _ _) (lawful_avx hs).toLawfulCore (lawful_avx_find hs) ⟨rfl, fun _ => rfl,
      fun b w cap xs h => plainRep_data h, fun b w cap xs n h => h.take n⟩ (dbgAvx_ok _ _) (mod_fits _)⟩
  | varwidth hc => exact ⟨_, _, _, _, btKeyLaws_dbg (c := dbgVar _ _) (lawful_var_strict hc).toLawfulCore (lawful_var_find hc) ⟨rfl, fun _ => rfl,
      fun b w cap xs ⟨r, h, _⟩ => by rw [h]; rfl, fun b w cap xs n h => h.take n⟩ (dbgVar_ok hc _) (fun w x _ h => Nat.mod_eq_of_lt h)⟩

theorem plainRep_lt {s : Nat} : ∀ b w cap xs, PlainRep s b w cap xs → ∀ x ∈ xs, x < 2 ^ s := fun _ _ _ _ ⟨_, _, _, h⟩ => h

theorem IsBtVal.lawful {ops : BucketOps PlainB} {null : PlainB → Bool} {s : Nat} (h : IsBtVal ops null s) :
    BtValLaws ops null s (PlainRep s) (fun _ _ => True) := by
  cases h with
  | plain hs => exact ⟨(lawful_plain (bits8 hs)).toLawfulCore, ⟨rfl, fun _ => rfl,
      fun b w cap xs h => plainRep_data h, fun b w cap xs n h => h.take n⟩, fun _ _ => trivial, plainRep_lt⟩
  | «class» hs => exact ⟨(lawful_class (bits8 hs)).toLawfulCore, ⟨rfl, fun _ => rfl,
      fun b w cap xs h => plainRep_data h, fun b w cap xs n h => h.take n⟩, fun _ _ => trivial, plainRep_lt⟩

theorem IsBtDbgVal.lawful {ops : BucketOps (DbgB PlainB)} {null : DbgB PlainB → Bool} {s : Nat} (h : IsBtDbgVal ops null s) :
    ∃ Rep ok, BtValLaws ops null s Rep ok := by
  cases h with
  | plain hs => exact ⟨_, _, lawful_dbg (c := dbgPlain _ _) (lawful_plain (bits8 hs)).toLawfulCore (dbgPlain_ok _ _), ⟨rfl, fun _ => rfl,
      fun b w cap xs h => plainRep_data h.1, fun b w cap xs n h => ⟨h.1.take n, h.2⟩⟩, fun _ _ h => (by cases h), fun b w cap xs h => plainRep_lt _ _ _ _ h.1⟩
  | «class» hs => exact ⟨_, _, lawful_dbg (c := dbgClass _ _) (lawful_class (bits8 hs)).toLawfulCore (dbgClass_ok _ _), ⟨rfl, fun _ => rfl,
      fun b w cap xs h => plainRep_data h.1, fun b w cap xs n h => ⟨h.1.take n, h.2⟩⟩, fun _ _ h => (by cases h), fun b w cap xs h => plainRep_lt _ _ _ _ h.1⟩

/-- how many elements there can be -/
def btMax : Strategy → Nat
  | .incremental => 2 ^ 32 - 1
  | .arbitrary => 255

theorem arbResize_bounds {n : Nat} (h : n ≤ 255) : n ≤ arbResize n ∧ arbResize n ≤ 255 := by
  unfold arbResize
  simp only [maxBucketByteSize]
  split <;> omega

theorem btGrow_ge {st : Strategy} {n : Nat} (h : n ≤ btMax st) : n ≤ btGrow st n := by
  cases st with
  | incremental => exact Nat.le_refl _
  | arbitrary =>
    obtain ⟨h1, h2⟩ := arbResize_bounds h
    simp only [btGrow]
    rw [Nat.mod_eq_of_lt (by omega)]
    exact h1

theorem btGrow_le (n : Nat) : btGrow .arbitrary n ≤ 255 := by
  refine Nat.le_trans (Nat.mod_le _ _) ?_
  unfold arbResize
  simp only [maxBucketByteSize]
  split <;> omega

theorem btGrow_max {st : Strategy} {n : Nat} (h : n ≤ btMax st) : btGrow st n ≤ btMax st := by
  cases st with
  | incremental => exact h
  | arbitrary => exact btGrow_le n

/-- the meaning of the buckets: see `BtKeyLaws`, `BtValLaws` -/
structure BtMean (A VB : Type) where
  norm : Nat → Nat → Nat
  Rep : A → Nat → Nat → List Nat → Prop
  spare : Bool
  ok : Nat → Nat → Prop
  VRep : VB → Nat → Nat → List Nat → Prop
  vok : Nat → Nat → Prop

/-- what the correctness argument needs -/
structure BtLaws (c : BtCfg A VB) (kw : Nat) (M : BtMean A VB) : Prop where
  keys : LawfulCore c.kops M.norm M.Rep M.spare M.ok
  find : LawfulFind c.kops M.norm M.Rep
  opt : LawfulOpt c.kops c.knull M.Rep
  norm : ∀ x, x < 2 ^ kw → M.norm kw x = x
  ok : ∀ x, x < 2 ^ kw → M.ok kw x
  vals : LawfulCore c.vops (fun _ x => x % 2 ^ c.vbits) M.VRep false M.vok
  vopt : LawfulOpt c.vops c.vnull M.VRep
  vok : ∀ w x, M.vok w x
  vlt : ∀ b w cap xs, M.VRep b w cap xs → ∀ x ∈ xs, x < 2 ^ c.vbits
  kw_pos : 1 ≤ kw
  kw_le : kw ≤ 64
  v_pos : 1 ≤ c.vbits
  v_le : c.vbits ≤ 64

/-- the table holds the pairs `l`, in this order -/
structure BtRep (c : BtCfg A VB) (kw : Nat) (M : BtMean A VB) (t : BTab A VB) (l : List (Nat × Nat)) : Prop where
  width : t.width = kw
  elems : t.elems = l.length
  le : l.length ≤ btMax c.strat
  nodup : (l.map Prod.fst).Nodup
  key : ∀ e ∈ l, e.1 < 2 ^ kw
  len : c.strat = .arbitrary → t.len ≤ 255
  mem : (l = [] ∧ c.knull t.keys = true ∧ c.vnull t.vals = true) ∨
    (l ≠ [] ∧ (c.debug = true → HoldsP t.plain (l.map Prod.fst)) ∧ ∃ kc vc, M.Rep t.keys kw kc (l.map Prod.fst) ∧
      M.VRep t.vals c.vbits vc (l.map Prod.snd) ∧ (c.strat = .arbitrary → kc = t.len ∧ vc = t.len) ∧ vc ≤ btMax c.strat)

variable {c : BtCfg A VB} {kw : Nat} {M : BtMean A VB}

theorem btMax_lt (st : Strategy) : btMax st < 2 ^ 32 := by cases st <;> decide

theorem posOf_npos {xs : List Nat} {x : Nat} (h : xs.length < 2 ^ 32) : posOf xs x = NPOS ↔ x ∉ xs := by
  unfold posOf
  split
  · next hm =>
    have := List.idxOf_lt_length_iff.mpr hm
    refine ⟨fun e => ?_, fun e => absurd hm e⟩
    rw [e] at this
    simp only [NPOS] at this
    omega
  · next hm => exact ⟨fun _ => hm, fun _ => rfl⟩

/-- the loop over the copy of the keys finds the first occurrence -/
theorem btScan_ok {t : BTab A VB} {k : Nat} {xs : List Nat} (hr : ∀ i (h : i < xs.length), c.kops.read t.keys i t.width = .ok xs[i])
    (hp : HoldsP t.plain xs) : ∀ n i, i + n = xs.length → k ∉ xs.take i → t.scan c k i n = .ok (posOf xs k) := by
  intro n
  induction n with
  | zero =>
    intro i hi hk
    rw [List.take_of_length_le (by omega)] at hk
    rw [posOf, if_neg hk]
    rfl
  | succ n ih =>
    intro i hi hk
    have hlt : i < xs.length := by omega
    rw [BTab.scan, hr i hlt, ok_bind, hp.read hlt, ok_bind, ddcheck_ok rfl, ok_bind]
    by_cases e : xs[i] = k
    · rw [if_pos e, pure_eq_ok, posOf, if_pos (by rw [← e]; exact List.getElem_mem _)]
      congr 1
      have h1 : xs = xs.take i ++ xs.drop i := (List.take_append_drop i xs).symm
      rw [h1, List.idxOf_append, if_neg hk, List.drop_eq_getElem_cons hlt, e, List.idxOf_cons_self, List.length_take]
      omega
    · rw [if_neg e]
      refine ih (i + 1) (by omega) ?_
      rw [List.take_succ_eq_append_getElem hlt, List.mem_append, List.mem_singleton, not_or]
      exact ⟨hk, fun h => e h.symm⟩

theorem BtRep.locate (L : BtLaws c kw M) {t : BTab A VB} {l : List (Nat × Nat)} (h : BtRep c kw M t l) (hl : l ≠ [])
    {k : Nat} (hk : k < 2 ^ kw) : t.locate c k = .ok (posOf (l.map Prod.fst) k) := by
  obtain ⟨h1, _⟩ | ⟨_, hp, kc, vc, h2, _⟩ := h.mem
  · exact absurd h1 hl
  · have hf := L.find.find t.keys kw kc _ k L.kw_pos L.kw_le h2 (L.norm k hk)
    rw [List.length_map] at hf
    have hs : c.debug = true → t.plainPos c k = .ok (posOf (l.map Prod.fst) k) := by
      intro hd
      rw [BTab.plainPos, if_pos hd, h.elems]
      exact btScan_ok (fun i hi => by rw [h.width]; exact L.keys.read _ _ _ _ i L.kw_pos L.kw_le h2 hi) (hp hd) _ 0 (by simp) (by simp)
    have hlt : posOf (l.map Prod.fst) k ≠ NPOS → posOf (l.map Prod.fst) k < l.length := by
      intro hne
      unfold posOf at hne ⊢
      split at hne
      · next hm =>
        rw [if_pos hm]
        have := List.idxOf_lt_length_iff.mpr hm
        simpa using this
      · exact absurd rfl hne
    unfold BTab.locate
    cases hd : c.debug with
    | true =>
      rw [hs hd, ok_bind, h.elems, h.width, hf, ok_bind, ddcheck_ok rfl, ok_bind, ddcheck_ok hlt, ok_bind, pure_eq_ok]
    | false =>
      rw [BTab.plainPos, hd, if_neg (by decide), ok_bind, h.elems, h.width, hf, ok_bind, ddcheck_off, ok_bind, ddcheck_off, ok_bind, pure_eq_ok]

theorem BtRep.isNone (L : BtLaws c kw M) {t : BTab A VB} {l : List (Nat × Nat)} (h : BtRep c kw M t l) :
    c.knull t.keys = decide (l = []) := by
  obtain ⟨h1, h2, _⟩ | ⟨h1, _, kc, vc, h2, _⟩ := h.mem
  · rw [h1, h2]; rfl
  · rw [L.opt.some _ _ _ _ h2]; simp [h1]

theorem BtRep.read (L : BtLaws c kw M) {t : BTab A VB} {l : List (Nat × Nat)} (h : BtRep c kw M t l) {i : Nat}
    (hi : i < l.length) : t.keyAt c i = .ok l[i].1 ∧ t.valueAt c i = .ok l[i].2 := by
  obtain ⟨h1, _⟩ | ⟨_, _, kc, vc, h2, h3, _⟩ := h.mem
  · subst h1; simp at hi
  · unfold BTab.keyAt BTab.valueAt
    have hi1 : i < (l.map Prod.fst).length := by simpa using hi
    have hi2 : i < (l.map Prod.snd).length := by simpa using hi
    rw [h.elems, ddcheck_ok hi, ok_bind, ok_bind]
    rw [h.width, L.keys.read _ _ _ _ i L.kw_pos L.kw_le h2 hi1, L.vals.read _ _ _ _ i L.v_pos L.v_le h3 hi2]
    simp

/-- construction of an iterator -/
theorem BtRep.iter (L : BtLaws c kw M) {t : BTab A VB} {l : List (Nat × Nat)} (h : BtRep c kw M t l) (i : Nat) : t.iter c i = .ok l[i]? := by
  unfold BTab.iter BTab.invalid
  rw [h.elems]
  by_cases hi : i < l.length
  · obtain ⟨r1, r2⟩ := h.read L hi
    rw [if_neg (by simp; omega), BTab.update, h.elems, ddcheck_ok hi, ok_bind, r1, ok_bind, r2, ok_bind, List.getElem?_eq_getElem hi]
    rfl
  · rw [if_pos (by simp; omega), List.getElem?_eq_none (by omega)]
    rfl

/-- `find` gives the position, or `NPOS` -/
theorem BtRep.find (L : BtLaws c kw M) {t : BTab A VB} {l : List (Nat × Nat)} (h : BtRep c kw M t l)
    {k : Nat} (hk : k < 2 ^ kw) : t.find c k = .ok (posOf (l.map Prod.fst) k, l[posOf (l.map Prod.fst) k]?) := by
  unfold BTab.find
  rw [h.isNone L]
  by_cases hl : l = []
  · subst hl; rfl
  · simp only [hl, decide_false, Bool.false_eq_true, if_false]
    rw [h.locate L hl hk, ok_bind, h.iter L, ok_bind, pure_eq_ok]

theorem BTab.navEq_npos {t : BTab A VB} (h : t.elems ≤ 2 ^ 32) (i : Nat) : t.navEq i NPOS = decide (t.elems ≤ i) := by
  have : t.invalid NPOS = true := by simp only [BTab.invalid, NPOS, decide_eq_true_eq]; omega
  simp only [BTab.navEq, this]
  simp [BTab.invalid]

theorem BtRep.navEq {t : BTab A VB} {l : List (Nat × Nat)} (h : BtRep c kw M t l) (i : Nat) :
    t.navEq i NPOS = decide (l.length ≤ i) := by
  have := btMax_lt c.strat
  have := h.le
  rw [BTab.navEq_npos (by rw [h.elems]; omega), h.elems]

/-- the copy of the keys has room for another key -/
def PlainRoom (p : PlainB) (xs : List Nat) : Prop :=
  ∃ L : Cells, p = some L ∧ L.length = xs.length + 1 ∧ ∀ i (h : i < xs.length), L[i]? = some (some xs[i])

/-- appending an element, once there is room -/
theorem put_ok (L : BtLaws c kw M) {t : BTab A VB} {l : List (Nat × Nat)} {k v kc vc : Nat} (hw : t.width = kw)
    (he : t.elems = l.length + 1) (hle : l.length + 1 ≤ btMax c.strat) (hnd : (l.map Prod.fst).Nodup) (hkl : ∀ e ∈ l, e.1 < 2 ^ kw)
    (hk : k < 2 ^ kw) (hnew : k ∉ l.map Prod.fst) (hpl : c.debug = true → PlainRoom t.plain (l.map Prod.fst))
    (hr1 : M.Rep t.keys kw kc (l.map Prod.fst)) (hr2 : M.VRep t.vals c.vbits vc (l.map Prod.snd)) (hc1 : l.length < kc)
    (hc2 : l.length < vc) (hlen : c.strat = .arbitrary → t.len ≤ 255) (ha : c.strat = .arbitrary → kc = t.len ∧ vc = t.len)
    (hvc : vc ≤ btMax c.strat) :
    t.elems ≤ t.capacity c ∧
    ∃ t', BTab.put c t k v = .ok (t', l.length) ∧ BtRep c kw M t' (l ++ [(k, v % 2 ^ c.vbits)]) ∧ t'.len = t.len := by
  obtain ⟨ks, h1, h2⟩ := L.keys.write_new _ _ _ _ k L.kw_pos L.kw_le hr1 (by simpa using hc1) (L.ok k hk)
  obtain ⟨vs, h3, h4⟩ := L.vals.write_new _ _ _ _ v L.v_pos L.v_le hr2 (by simpa using hc2) (L.vok _ _)
  rw [List.length_map] at h1 h3
  rw [L.norm k hk] at h2
  have hcap : t.elems ≤ t.capacity c := by
    unfold BTab.capacity
    cases hs : c.strat with
    | incremental => exact Nat.le_refl _
    | arbitrary => simp only; rw [he, ← (ha hs).1]; exact hc1
  obtain ⟨p', e1, e2⟩ : ∃ p', t.plainWrite c l.length k = .ok p' ∧ (c.debug = true → HoldsP p' (l.map Prod.fst ++ [k])) := by
    unfold BTab.plainWrite
    cases hd : c.debug with
    | true =>
      obtain ⟨p', g1, g2⟩ := HoldsP.append (.inr (hpl hd)) k
      rw [List.length_map] at g1
      exact ⟨p', by rw [if_pos rfl]; exact g1, fun _ => g2⟩
    | false => exact ⟨t.plain, rfl, fun e => by cases e⟩
  refine ⟨hcap, { t with keys := ks, vals := vs, plain := p' }, ?_, ?_, rfl⟩
  · rw [he] at hcap
    simp only [BTab.put, he, ddcheck_ok hcap, ok_bind, hw, Nat.add_sub_cancel, e1, h1, h3, pure_eq_ok]
  · refine ⟨hw, by simp [he], by simpa using hle, ?_, ?_, hlen, .inr ⟨by simp, by simpa using e2, kc, vc, ?_, ?_, ha, hvc⟩⟩
    · rw [List.map_append, List.nodup_append]
      refine ⟨hnd, by simp, ?_⟩
      intro a ha b hb
      simp only [List.map_cons, List.map_nil, List.mem_singleton] at hb
      subst hb
      intro e; subst e; exact hnew ha
    · intro e he
      rcases List.mem_append.mp he with h | h
      · exact hkl e h
      · rw [List.mem_singleton.mp h]; exact hk
    · simpa using h2
    · simpa using h4

/-- `find_or_insert` -/
theorem BtRep.insert (L : BtLaws c kw M) {t : BTab A VB} {l : List (Nat × Nat)} (h : BtRep c kw M t l) {k v : Nat}
    (hk : k < 2 ^ kw) :
    (∀ x, (k, x) ∈ l → ∃ i, ∃ hi : i < l.length, l[i] = (k, x) ∧ t.insert c k v = .ok (t, i)) ∧
    (k ∉ l.map Prod.fst → l.length + 1 ≤ btMax c.strat → ∃ t', t.insert c k v = .ok (t', l.length) ∧
      BtRep c kw M t' (l ++ [(k, v % 2 ^ c.vbits)])) := by
  have hmax := btMax_lt c.strat
  have hle := h.le
  constructor
  · intro x hx
    have hl : l ≠ [] := by intro e; subst e; simp at hx
    have hmem : k ∈ l.map Prod.fst := List.mem_map.mpr ⟨_, hx, rfl⟩
    have hi := List.idxOf_lt_length_iff.mpr hmem
    rw [List.length_map] at hi
    refine ⟨(l.map Prod.fst).idxOf k, hi, ?_, ?_⟩
    · have e1 : (l[(l.map Prod.fst).idxOf k]'hi).1 = k := by
        have := List.getElem_idxOf (List.idxOf_lt_length_iff.mpr hmem)
        rw [List.getElem_map] at this
        exact this
      obtain ⟨j, hj, ej⟩ := List.mem_iff_getElem.mp hx
      have := (List.getElem_inj (i := j) (j := (l.map Prod.fst).idxOf k) (h₀ := by simpa using hj) (h₁ := by simpa using hi) h.nodup).mp (by
        rw [List.getElem_map, List.getElem_map, ej, e1])
      subst this
      exact ej
    · unfold BTab.insert
      rw [h.width, ddcheck_ok (show k ≤ 2 ^ kw - 1 by omega), ok_bind, h.isNone L]
      simp only [hl, decide_false, Bool.false_eq_true, if_false, h.locate L hl hk, ok_bind]
      have hp : posOf (l.map Prod.fst) k = (l.map Prod.fst).idxOf k := by simp only [posOf, if_pos hmem]
      have hne : posOf (l.map Prod.fst) k ≠ NPOS := by
        rw [ne_eq, posOf_npos (by simp; omega)]; simpa using hmem
      rw [if_pos hne, hp, h.elems, ddcheck_ok hi]
      rfl
  · intro hnew hcap
    unfold BTab.insert
    rw [h.width, ddcheck_ok (show k ≤ 2 ^ kw - 1 by omega), ok_bind]
    rw [h.isNone L]
    by_cases hl : l = []
    · subst hl
      have hvn : c.vnull t.vals = true := by
        obtain ⟨_, _, h2⟩ | ⟨h1, _⟩ := h.mem
        · exact h2
        · exact absurd rfl h1
      simp only [decide_true, if_true, ddcheck_ok, ok_bind, ddcheck_ok hvn]
      obtain ⟨ks, h1, h2⟩ := L.keys.init 1 kw kw L.kw_pos (Nat.le_refl _) L.kw_le
      obtain ⟨vs, h3, h4⟩ := L.vals.init 1 c.vbits c.vbits L.v_pos (Nat.le_refl _) L.v_le
      obtain ⟨p, e1, e2⟩ : ∃ p, c.plainInit = .ok p ∧ (c.debug = true → PlainRoom p []) := by
        unfold BtCfg.plainInit
        cases hd : c.debug with
        | true => exact ⟨_, rfl, fun _ => ⟨_, rfl, rfl, by simp⟩⟩
        | false => exact ⟨_, rfl, fun e => by cases e⟩
      rw [h1, ok_bind, h3, ok_bind, e1, ok_bind]
      obtain ⟨_, t', g1, g2, _⟩ := put_ok L (t := { t with keys := ks, vals := vs, elems := 1, len := 1, width := kw, plain := p }) (l := []) (v := v) (kc := 1) (vc := 1) rfl rfl hcap
        h.nodup h.key hk hnew e2 h2 h4 (by simp) (by simp) (fun _ => (by omega : 1 ≤ 255)) (fun _ => ⟨rfl, rfl⟩) hcap
      refine ⟨t', ?_, g2⟩
      exact g1
    · simp only [hl, decide_false, Bool.false_eq_true, if_false, h.locate L hl hk, ok_bind]
      have he : posOf (l.map Prod.fst) k = NPOS := (posOf_npos (by simp; omega)).mpr hnew
      rw [he]
      have e1 : (t.elems + 1) % 2 ^ 32 = l.length + 1 := by rw [h.elems, Nat.mod_eq_of_lt (by omega)]
      simp only [ne_eq, not_true_eq_false, if_false, e1]
      obtain ⟨h1, _⟩ | ⟨_, hpl, kc, vc, h2, h3, h4⟩ := h.mem
      · exact absurd h1 hl
      · obtain ⟨p, p1, p2⟩ : ∃ p, t.plainGrow c (l.length + 1) = .ok p ∧ (c.debug = true → PlainRoom p (l.map Prod.fst)) := by
          unfold BTab.plainGrow
          cases hd : c.debug with
          | true =>
            obtain ⟨C, q1, q2, q3⟩ := (hpl hd).resize (n := l.length + 1) (by simp)
            exact ⟨_, by rw [if_pos rfl]; exact q1, fun _ => ⟨C, rfl, by simpa using q2, q3⟩⟩
          | false => exact ⟨t.plain, rfl, fun e => by cases e⟩
        rw [p1, ok_bind]
        by_cases hn : t.needsResize c (l.length + 1) = true
        · rw [if_pos hn]
          have hg := btGrow_ge hcap
          obtain ⟨ks, k1, k2⟩ := L.keys.resize _ _ _ _ (btGrow c.strat (l.length + 1)) L.kw_pos L.kw_le h2 (by simp; omega) (by omega)
          obtain ⟨vs, v1, v2⟩ := L.vals.resize _ _ _ _ (btGrow c.strat (l.length + 1)) L.v_pos L.v_le h3 (by simp; omega) (by omega)
          rw [List.length_map] at k1 v1
          have hres : c.strat = .arbitrary → arbResize (l.length + 1) ≤ 2 ^ 32 - 1 := fun e => by
            have := (arbResize_bounds (n := l.length + 1) (by rw [e] at hcap; exact hcap)).2
            omega
          rw [ddcheck_ok hres, ok_bind, Nat.add_sub_cancel, k1, ok_bind, v1, ok_bind]
          obtain ⟨g0, t', g1, g2, _⟩ := put_ok L (t := { t with keys := ks, vals := vs, elems := l.length + 1, len := btGrow c.strat (l.length + 1), plain := p })
            (l := l) (k := k) (v := v) h.width rfl hcap h.nodup h.key hk hnew p2 k2 v2 (by omega) (by omega) (fun e => by rw [e]; exact btGrow_le _) (fun _ => ⟨rfl, rfl⟩)
            (btGrow_max hcap)
          rw [show t.width = kw from h.width] at g0 g1
          exact ⟨t', by rw [ddcheck_ok g0, ok_bind]; exact g1, g2⟩
        · rw [if_neg hn]
          have hlen : c.strat = .arbitrary ∧ l.length + 1 < t.len := by
            unfold BTab.needsResize at hn
            cases hs : c.strat with
            | incremental => rw [hs] at hn; simp at hn
            | arbitrary => rw [hs] at hn; simpa using hn
          obtain ⟨e3, e4⟩ := h4.1 hlen.1
          obtain ⟨g0, t', g1, g2, _⟩ := put_ok L (t := { t with elems := l.length + 1, plain := p })
            (l := l) (k := k) (v := v) h.width rfl hcap h.nodup h.key hk hnew p2 h2 h3 (by omega) (by omega) h.len h4.1 h4.2
          rw [show t.width = kw from h.width] at g0 g1
          exact ⟨t', by rw [ddcheck_ok g0, ok_bind]; exact g1, g2⟩

/-- writing a value -/
theorem BtRep.writeValue (L : BtLaws c kw M) {t : BTab A VB} {l : List (Nat × Nat)} (h : BtRep c kw M t l) {i v : Nat}
    (hi : i < l.length) : ∃ t', t.writeValue c i v = .ok t' ∧ BtRep c kw M t' (l.set i (l[i].1, v % 2 ^ c.vbits)) := by
  obtain ⟨h1, _⟩ | ⟨hl, hpl, kc, vc, h2, h3, h4⟩ := h.mem
  · subst h1; simp at hi
  · obtain ⟨vs, v1, v2⟩ := L.vals.write_old _ _ _ _ v i L.v_pos L.v_le h3 (by simpa using hi) (L.vok _ _)
    have e1 : (l.set i (l[i].1, v % 2 ^ c.vbits)).map Prod.fst = l.map Prod.fst := by
      rw [List.map_set]
      apply List.ext_getElem (by simp)
      intro j hj1 hj2
      rw [List.getElem_set]
      split
      · next e => subst e; simp
      · rfl
    refine ⟨{ t with vals := vs }, by simp only [BTab.writeValue, h.elems, ddcheck_ok hi, v1, ok_bind]; rfl, h.width, by simp [h.elems], by simpa using h.le, by rw [e1]; exact h.nodup, ?_, h.len,
      .inr ⟨by simpa using hl, by rw [e1]; exact hpl, kc, vc, by rw [e1]; exact h2, ?_, h4⟩⟩
    · intro e he
      have : e.1 ∈ l.map Prod.fst := by rw [← e1]; exact List.mem_map.mpr ⟨e, he, rfl⟩
      obtain ⟨e', he', e3⟩ := List.mem_map.mp this
      rw [← e3]; exact h.key e' he'
    · rw [List.map_set]; exact v2

/-- the loop of `erase` -/
theorem shift_ok (L : BtLaws c kw M) {kc vc : Nat} : ∀ (n i : Nat) (t : BTab A VB) (ks vs : List Nat), 1 ≤ i → i + n = ks.length →
    ks.length = vs.length → t.width = kw → M.Rep t.keys kw kc ks → M.VRep t.vals c.vbits vc vs →
    (c.debug = true → HoldsP t.plain ks) → (∀ x ∈ ks, x < 2 ^ kw) → (∀ x ∈ vs, x < 2 ^ c.vbits) →
    ∃ kb vb p ks' vs', t.shift c i n = .ok { t with keys := kb, vals := vb, plain := p } ∧ M.Rep kb kw kc ks' ∧ M.VRep vb c.vbits vc vs' ∧
      (c.debug = true → HoldsP p ks') ∧
      ks'.take (ks.length - 1) = ks.eraseIdx (i - 1) ∧ vs'.take (ks.length - 1) = vs.eraseIdx (i - 1) := by
  have ers : ∀ (xs : List Nat) i, 1 ≤ i → (hi : i < xs.length) → (xs.set (i - 1) xs[i]).eraseIdx i = xs.eraseIdx (i - 1) := by
    intro xs i h1 hi
    apply List.ext_getElem
    · rw [List.length_eraseIdx_of_lt (by simpa using hi), List.length_eraseIdx_of_lt (by omega)]; simp
    · intro j hj1 hj2
      rw [List.getElem_eraseIdx, List.getElem_eraseIdx]
      simp only [List.getElem_set]
      by_cases e1 : j < i - 1
      · simp only [e1, dif_pos, show j < i by omega, if_neg (show ¬ i - 1 = j by omega)]
      · by_cases e2 : j = i - 1
        · subst e2
          simp only [show i - 1 < i by omega, dif_pos, if_true, Nat.lt_irrefl, dif_neg, not_false_iff, show i - 1 + 1 = i by omega]
        · simp only [e1, dif_neg, not_false_iff, show ¬ j < i by omega, if_neg (show ¬ i - 1 = j + 1 by omega)]
  have last : ∀ (xs : List Nat) i, 1 ≤ i → i = xs.length → xs.take (xs.length - 1) = xs.eraseIdx (i - 1) := by
    intro xs i h1 h2
    subst h2
    rw [List.eraseIdx_eq_take_drop_succ, show xs.length - 1 + 1 = xs.length by omega, List.drop_length, List.append_nil]
  intro n
  induction n with
  | zero =>
    intro i t ks vs h1 h2 h3 hw hr1 hr2 hpl _ _
    refine ⟨t.keys, t.vals, t.plain, ks, vs, rfl, hr1, hr2, hpl, last ks i h1 (by omega), ?_⟩
    rw [h3]; exact last vs i h1 (by omega)
  | succ n ih =>
    intro i t ks vs h1 h2 h3 hw hr1 hr2 hpl hk hv
    have hi1 : i < ks.length := by omega
    have hi2 : i < vs.length := by omega
    obtain ⟨kb, k1, k2⟩ := L.keys.write_old _ _ _ _ ks[i] (i - 1) L.kw_pos L.kw_le hr1 (by omega) (L.ok _ (hk _ (List.getElem_mem _)))
    obtain ⟨vb, v1, v2⟩ := L.vals.write_old _ _ _ _ vs[i] (i - 1) L.v_pos L.v_le hr2 (by omega) (L.vok _ _)
    rw [L.norm _ (hk _ (List.getElem_mem _))] at k2
    simp only [Nat.mod_eq_of_lt (hv _ (List.getElem_mem hi2))] at v2
    obtain ⟨p, p1, p2⟩ : ∃ p, t.plainMove c i = .ok p ∧ (c.debug = true → HoldsP p (ks.set (i - 1) ks[i])) := by
      unfold BTab.plainMove
      cases hd : c.debug with
      | true =>
        obtain ⟨p, q1, q2⟩ := (hpl hd).set (i := i - 1) (by omega) ks[i]
        exact ⟨p, by rw [if_pos rfl, (hpl hd).read hi1, ok_bind]; exact q1, fun _ => q2⟩
      | false => exact ⟨t.plain, rfl, fun e => by cases e⟩
    obtain ⟨kb', vb', p', ks', vs', g1, g2, g3, gp, g4, g5⟩ := ih (i + 1) { t with keys := kb, vals := vb, plain := p } (ks.set (i - 1) ks[i]) (vs.set (i - 1) vs[i]) (by omega)
      (by simp; omega) (by simpa using h3) hw k2 v2 p2
      (fun x hx => by
        rcases List.mem_or_eq_of_mem_set hx with h | h
        · exact hk x h
        · rw [h]; exact hk _ (List.getElem_mem _))
      (fun x hx => by
        rcases List.mem_or_eq_of_mem_set hx with h | h
        · exact hv x h
        · rw [h]; exact hv _ (List.getElem_mem _))
    refine ⟨kb', vb', p', ks', vs', ?_, g2, g3, gp, ?_, ?_⟩
    · simp only [BTab.shift, hw, L.keys.read _ _ _ _ i L.kw_pos L.kw_le hr1 hi1, ok_bind, k1, p1,
        L.vals.read _ _ _ _ i L.v_pos L.v_le hr2 hi2, v1]
      rw [hw] at g1
      exact g1
    · rw [List.length_set, Nat.add_sub_cancel, ers ks i h1 hi1] at g4
      exact g4
    · rw [List.length_set, Nat.add_sub_cancel, ers vs i h1 hi2] at g5
      exact g5

theorem BtRep.clear (L : BtLaws c kw M) {t : BTab A VB} (hw : t.width = kw) (hlen : c.strat = .arbitrary → t.len ≤ 255) : BtRep c kw M (t.clear c) [] where
  width := hw
  elems := rfl
  le := Nat.zero_le _
  nodup := by simp
  key := by simp
  len := hlen
  mem := .inl ⟨rfl, L.opt.clear _, L.vopt.clear _⟩

/-- position of a pair -/
theorem idx_of_mem {l : List (Nat × Nat)} {k x : Nat} (hnd : (l.map Prod.fst).Nodup) (hx : (k, x) ∈ l) :
    ∃ hi : (l.map Prod.fst).idxOf k < l.length, l[(l.map Prod.fst).idxOf k] = (k, x) := by
  have hmem : k ∈ l.map Prod.fst := List.mem_map.mpr ⟨_, hx, rfl⟩
  have hi := List.idxOf_lt_length_iff.mpr hmem
  rw [List.length_map] at hi
  refine ⟨hi, ?_⟩
  have e1 : (l[(l.map Prod.fst).idxOf k]'hi).1 = k := by
    have := List.getElem_idxOf (List.idxOf_lt_length_iff.mpr hmem)
    rw [List.getElem_map] at this
    exact this
  obtain ⟨j, hj, ej⟩ := List.mem_iff_getElem.mp hx
  have := (List.getElem_inj (i := j) (j := (l.map Prod.fst).idxOf k) (h₀ := by simpa using hj) (h₁ := by simpa using hi) hnd).mp (by
    rw [List.getElem_map, List.getElem_map, ej, e1])
  rw [← ej]
  congr 1
  exact this.symm

/-- `erase` -/
theorem BtRep.erase (L : BtLaws c kw M) {t : BTab A VB} {l : List (Nat × Nat)} (h : BtRep c kw M t l) {k : Nat}
    (hk : k < 2 ^ kw) :
    (k ∉ l.map Prod.fst → t.erase c k = .ok (t, 0)) ∧
    (∀ x, (k, x) ∈ l → ∃ t' i, ∃ hi : i < l.length, l[i] = (k, x) ∧ t.erase c k = .ok (t', 1) ∧ BtRep c kw M t' (l.eraseIdx i)) := by
  have hmax := btMax_lt c.strat
  have hle := h.le
  constructor
  · intro hn
    unfold BTab.erase
    rw [h.isNone L]
    by_cases hl : l = []
    · subst hl; rfl
    · simp only [hl, decide_false, Bool.false_eq_true, if_false, h.locate L hl hk, ok_bind]
      rw [if_pos ((posOf_npos (by simp; omega)).mpr hn)]
      rfl
  · intro x hx
    have hl : l ≠ [] := by intro e; subst e; simp at hx
    have hmem : k ∈ l.map Prod.fst := List.mem_map.mpr ⟨_, hx, rfl⟩
    obtain ⟨hi, ei⟩ := idx_of_mem h.nodup hx
    have hp : posOf (l.map Prod.fst) k = (l.map Prod.fst).idxOf k := by simp only [posOf, if_pos hmem]
    have hne : ¬ posOf (l.map Prod.fst) k = NPOS := by
      rw [posOf_npos (by simp; omega)]; simpa using hmem
    generalize (l.map Prod.fst).idxOf k = i at *
    obtain ⟨h1, _⟩ | ⟨_, hpl, kc, vc, h2, h3, h4⟩ := h.mem
    · exact absurd h1 hl
    · have hv : ∀ x ∈ l.map Prod.snd, x < 2 ^ c.vbits := L.vlt _ _ _ _ h3
      obtain ⟨kb, vb, p, ks', vs', g1, g2, g3, gp, g4, g5⟩ := shift_ok L (kc := kc) (vc := vc) (l.length - (i + 1)) (i + 1) t (l.map Prod.fst) (l.map Prod.snd)
        (by omega) (by simp; omega) (by simp) h.width h2 h3 hpl
        (fun x hx => by obtain ⟨e, he, rfl⟩ := List.mem_map.mp hx; exact h.key e he) hv
      rw [List.length_map, Nat.add_sub_cancel] at g4 g5
      have e1 : (l.map Prod.fst).eraseIdx i = (l.eraseIdx i).map Prod.fst := by simp [List.eraseIdx_eq_take_drop_succ, List.map_take, List.map_drop]
      have e2 : (l.map Prod.snd).eraseIdx i = (l.eraseIdx i).map Prod.snd := by simp [List.eraseIdx_eq_take_drop_succ, List.map_take, List.map_drop]
      have el : (l.eraseIdx i).length = l.length - 1 := List.length_eraseIdx_of_lt hi
      have g2' := L.opt.take _ _ _ _ (l.length - 1) g2
      have g3' := L.vopt.take _ _ _ _ (l.length - 1) g3
      have gp' := fun e => (gp e).take (l.length - 1)
      rw [g4, e1] at g2' gp'
      rw [g5, e2] at g3'
      have eqn : t.erase c k = (if l.length - 1 = 0 then
          .ok (({ t with keys := kb, vals := vb, elems := l.length - 1, plain := p } : BTab A VB).clear c, 1)
        else .ok ({ t with keys := kb, vals := vb, elems := l.length - 1, plain := p }, 1)) := by
        unfold BTab.erase
        rw [h.isNone L]
        simp only [hl, decide_false, Bool.false_eq_true, if_false, h.locate L hl hk, ok_bind]
        rw [if_neg hne, hp, h.elems, g1]
        simp only [ok_bind, h.elems, ddcheck_ok (show 0 < l.length by omega)]
        split <;> rfl
      by_cases hz : l.length - 1 = 0
      · rw [if_pos hz] at eqn
        refine ⟨_, i, hi, ei, eqn, ?_⟩
        rw [List.eq_nil_of_length_eq_zero (el.trans hz)]
        exact BtRep.clear L h.width h.len
      · rw [if_neg hz] at eqn
        refine ⟨_, i, hi, ei, eqn, h.width, el.symm, by omega, ?_, fun e he => h.key e (List.mem_of_mem_eraseIdx he), h.len, .inr ⟨?_, gp', kc, vc, g2', g3', h4⟩⟩
        · exact ((List.eraseIdx_sublist l i).map Prod.fst).nodup h.nodup
        · intro e; rw [e] at el; simp at el; omega

/-- `shrink_to_fit` -/
theorem BtRep.shrink (L : BtLaws c kw M) {t : BTab A VB} {l : List (Nat × Nat)} (h : BtRep c kw M t l) :
    ∃ t', t.shrink c = .ok t' ∧ BtRep c kw M t' l ∧ (l ≠ [] → t'.capacity c = l.length) := by
  unfold BTab.shrink
  rw [h.isNone L]
  by_cases hl : l = []
  · subst hl; exact ⟨t, rfl, h, fun e => absurd rfl e⟩
  · have hpos : 0 < l.length := List.length_pos_iff.mpr hl
    simp only [hl, decide_false, Bool.false_eq_true, if_false]
    obtain ⟨h1, _⟩ | ⟨_, hpl, kc, vc, h2, h3, h4⟩ := h.mem
    · exact absurd h1 hl
    · by_cases hc : t.capacity c > t.elems
      · rw [if_pos hc]
        obtain ⟨ks, k1, k2⟩ := L.keys.resize _ _ _ _ l.length L.kw_pos L.kw_le h2 (by simp) hpos
        obtain ⟨vs, v1, v2⟩ := L.vals.resize _ _ _ _ l.length L.v_pos L.v_le h3 (by simp) hpos
        rw [List.length_map] at k1 v1
        rw [h.elems, h.width, k1, ok_bind, v1, ok_bind]
        refine ⟨_, rfl, ⟨rfl, rfl, h.le, h.nodup, h.key, fun e => by have := h.le; rw [e] at this; exact this, .inr ⟨hl, hpl, _, _, k2, v2, fun _ => ⟨rfl, rfl⟩, h.le⟩⟩, fun _ => ?_⟩
        unfold BTab.capacity
        cases c.strat <;> rfl
      · rw [if_neg hc]
        refine ⟨t, rfl, h, fun _ => ?_⟩
        have hge : l.length ≤ t.capacity c := by
          unfold BTab.capacity
          cases hs : c.strat with
          | incremental => simp only; rw [h.elems]; exact Nat.le_refl _
          | arbitrary =>
            have := L.keys.cap_ge _ _ _ _ h2
            rw [List.length_map, (h4.1 hs).1] at this
            exact this
        rw [h.elems] at hc
        omega

/-- `operator[]` of a constant table, for a key that is present -/
theorem BtRep.at_mem (L : BtLaws c kw M) {t : BTab A VB} {l : List (Nat × Nat)} (h : BtRep c kw M t l) {k x : Nat}
    (hk : k < 2 ^ kw) (hx : (k, x) ∈ l) : t.at c k = .ok x := by
  have hmax := btMax_lt c.strat
  have hle := h.le
  have hl : l ≠ [] := by intro e; subst e; simp at hx
  have hmem : k ∈ l.map Prod.fst := List.mem_map.mpr ⟨_, hx, rfl⟩
  obtain ⟨hi, ei⟩ := idx_of_mem h.nodup hx
  have hp : posOf (l.map Prod.fst) k = (l.map Prod.fst).idxOf k := by simp only [posOf, if_pos hmem]
  have hne : (l.map Prod.fst).idxOf k ≠ NPOS := by
    rw [← hp, ne_eq, posOf_npos (by simp; omega)]; simpa using hmem
  have hv := (h.read L hi).2
  rw [ei, BTab.valueAt, h.elems, ddcheck_ok hi, ok_bind] at hv
  unfold BTab.at
  rw [h.width, ddcheck_ok (show k ≤ 2 ^ kw - 1 by omega), ok_bind, h.isNone L, ddcheck_ok (by simp [hl]), ok_bind, h.locate L hl hk, ok_bind, hp,
    ddcheck_ok hne, ok_bind, h.elems, ddcheck_ok hi, ok_bind, hv]

/-- `operator[]` of a constant table in a debug build, for a key that is absent -/
theorem BtRep.at_debug (L : BtLaws c kw M) {t : BTab A VB} {l : List (Nat × Nat)} (h : BtRep c kw M t l) (hd : c.debug = true) {k : Nat}
    (hk : k < 2 ^ kw) (hx : k ∉ l.map Prod.fst) : t.at c k = .error .exc := by
  have hmax := btMax_lt c.strat
  have hle := h.le
  unfold BTab.at
  rw [h.width, ddcheck_ok (show k ≤ 2 ^ kw - 1 by omega), ok_bind, h.isNone L, hd]
  by_cases hl : l = []
  · rw [ddcheck_fails (by simp [hl])]; rfl
  · rw [ddcheck_ok (by simp [hl]), ok_bind, h.locate L hl hk, ok_bind, ddcheck_fails]
    · rfl
    · rw [(posOf_npos (by simp; omega)).mpr hx]; simp

/-- the same in a release build: `m_values[-1]` -/
theorem BtRep.at_release (L : BtLaws c kw M) {t : BTab A VB} {l : List (Nat × Nat)} (h : BtRep c kw M t l) (hd : c.debug = false) {k : Nat}
    (hk : k < 2 ^ kw) (hx : k ∉ l.map Prod.fst) : t.at c k = c.vops.read t.vals NPOS c.vbits := by
  have hmax := btMax_lt c.strat
  have hle := h.le
  have hloc : t.locate c k = .ok NPOS := by
    by_cases hl : l = []
    · subst hl
      rw [BTab.locate, BTab.plainPos, hd, if_neg (by decide), ok_bind, h.elems, List.length_nil, L.find.find_empty, ok_bind, ddcheck_off,
        ok_bind, ddcheck_off]
      rfl
    · rw [h.locate L hl hk, (posOf_npos (by simp; omega)).mpr hx]
  simp only [BTab.at, hd, ddcheck_off, hloc, ok_bind]

/-- in a debug build of a full table with `arbitrary_resize_bucket`, inserting another key is noticed -/
theorem BtRep.insert_full (L : BtLaws c kw M) {t : BTab A VB} {l : List (Nat × Nat)} (h : BtRep c kw M t l) (hd : c.debug = true)
    (hst : c.strat = .arbitrary) (hlen : l.length = 255) {k v : Nat} (hk : k < 2 ^ kw) (hx : k ∉ l.map Prod.fst) :
    t.insert c k v = .error .exc := by
  have hl : l ≠ [] := by intro e; subst e; simp at hlen
  have he : posOf (l.map Prod.fst) k = NPOS := (posOf_npos (by simp; omega)).mpr hx
  have e1 : (t.elems + 1) % 2 ^ 32 = 256 := by rw [h.elems, hlen]
  obtain ⟨e, _⟩ | ⟨_, hpl, kc, vc, r1, r2, r3, _⟩ := h.mem
  · exact absurd e hl
  · have hb : btGrow c.strat 256 = 255 := by rw [hst]; decide
    have hge := L.keys.cap_ge _ _ _ _ r1
    obtain ⟨ks, k1, k2⟩ := L.keys.resize _ _ _ _ 255 L.kw_pos L.kw_le r1 (by simp; omega) (by omega)
    obtain ⟨vs, v1, v2⟩ := L.vals.resize _ _ _ _ 255 L.v_pos L.v_le r2 (by simp; omega) (by omega)
    rw [List.length_map, hlen] at k1 v1
    have hn : t.needsResize c 256 = true := by
      have := h.len hst
      unfold BTab.needsResize
      rw [hst]
      simp only [decide_eq_true_eq]
      omega
    obtain ⟨C, q1, _, _⟩ := (hpl hd).resize (n := 256) (by simp; omega)
    have hg : t.plainGrow c 256 = .ok (some C) := by rw [BTab.plainGrow, if_pos hd]; exact q1
    have hres : c.strat = .arbitrary → arbResize 256 ≤ 2 ^ 32 - 1 := fun _ => by decide
    unfold BTab.insert
    rw [h.width, ddcheck_ok (show k ≤ 2 ^ kw - 1 by omega), ok_bind, h.isNone L]
    simp only [hl, decide_false, Bool.false_eq_true, if_false, h.locate L hl hk, ok_bind]
    rw [he, e1]
    simp only [ne_eq, not_true_eq_false, if_false, hg, ok_bind]
    rw [if_pos hn, ddcheck_ok hres, ok_bind, hb, k1, ok_bind, v1, ok_bind, hd, ddcheck_fails]
    · rfl
    · simp only [BTab.capacity, hst]; omega

end SC
