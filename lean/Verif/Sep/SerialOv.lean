import Verif.Overflow.ArraySerial
import Verif.Table.Facts
import Verif.Table.Agree
/-!
# `separate_chaining_table::serialize` and `deserialize` with `array_overflow`, sep:790-850
-/
namespace SC
variable {KB VB S O : Type}

/-- the table without its overflow table -/
def Tab.bare (t : Tab S O) : Tab S Unit where
  kw := t.kw
  vw := t.vw
  tb := t.tb
  elems := t.elems
  bpg := t.bpg
  store := t.store
  ovf := ()

/-- the other way round -/
def Tab.dress (t : Tab S Unit) (o : O) : Tab S O where
  kw := t.kw
  vw := t.vw
  tb := t.tb
  elems := t.elems
  bpg := t.bpg
  store := t.store
  ovf := o

/-- `serialize(os)`, sep:790-808: the overflow table comes first, sep:791 -/
def SepCfg.serializeArr (p : SepCfg KB VB) (hk : HashKind) (c : ArrEnv) (t : Tab (SepStore KB VB) ArrOv) : Res (List Nat) := do
  let o ← t.ovf.serialize c
  let r ← p.serialize hk t.bare
  return o ++ r

/-- `deserialize(is)`, sep:809-850: `clear`, `m_overflow.deserialize(is)`, then the rest.  `reserve` calls `resize_buckets` before
the buckets are read (sep:431); here it is executed last, which makes no difference. -/
def SepCfg.deserializeArr (p : SepCfg KB VB) (hk : HashKind) (c : ArrEnv) (t : Tab (SepStore KB VB) ArrOv) (is : List Nat) :
    Res (Tab (SepStore KB VB) ArrOv × List Nat) := do
  let (o, is) ← ((arrOverflow c).clear t.ovf).deserialize c is
  let (u, is) ← p.deserialize hk t.bare is
  let o ← (arrOverflow c).resizeBuckets o (2 ^ u.tb)
  return (u.dress o, is)

/-! ## What `find` sees of an overflow table -/

/-- for a search of the key `k` the overflow table `o` (of the class `a`) and the overflow table `o'` (of the class `b`) are the same -/
structure OvAlike (a b : OverflowOps O) (k : Nat) (o o' : O) : Prop where
  size : a.size o = b.size o'
  valid : a.validPosition o = b.validPosition o'
  find : 0 < b.size o' → a.find o k = b.find o' k
  key : ∀ p, b.validPosition o' p = true → a.key o p = b.key o' p
  read : ∀ p, b.validPosition o' p = true → a.read o p = b.read o' p

variable {g : Cfg S O} {a : OverflowOps O} {k : Nat} {o o' : O}

theorem OvAlike.invalid (h : OvAlike a g.ov k o o') (t : Tab S O) (n : Nav) :
    Tab.invalid (g.withOv a) { t with ovf := o } n = Tab.invalid g { t with ovf := o' } n := by
  simp only [Tab.invalid, Cfg.withOv, h.size, h.valid]
  rfl

/-- where `invalid()` is false, the navigator is in the overflow table on a valid position, or in a bucket -/
theorem invalid_false {t : Tab S O} {n : Nav} (h : t.invalid g n = .ok false) :
    (0 < g.ov.size t.ovf ∧ n.bucket = t.bucketCount ∧ g.ov.validPosition t.ovf n.pos = true) ∨ n.bucket < t.bucketCount := by
  unfold Tab.invalid at h
  split at h
  · next h' => exact .inl h'
  · split at h
    · cases h
    · right; omega

theorem OvAlike.lookup (h : OvAlike a g.ov k o o') (t : Tab S O) (htb : t.tb < 64) :
    Tab.lookup (g.withOv a) { t with ovf := o } k = Tab.lookup g { t with ovf := o' } k := by
  have hfind : Tab.find (g.withOv a) { t with ovf := o } k = Tab.find g { t with ovf := o' } k := by
    unfold Tab.find
    by_cases h0 : 0 < g.ov.size o'
    · simp only [Cfg.withOv, h.size, if_pos h0, h.find h0]
      rfl
    · simp only [Cfg.withOv, h.size, if_neg h0]
      rfl
  unfold Tab.lookup
  rw [hfind]
  cases hf : Tab.find g { t with ovf := o' } k with
  | error e => rfl
  | ok n =>
    simp only [ok_bind]
    have hinv := h.invalid t
    have hend : Tab.invalid g { t with ovf := o' } Nav.end_ = .ok true := by
      have hbc : Tab.bucketCount { t with ovf := o' } < NPOS := by
        have : Tab.bucketCount { t with ovf := o' } = Tab.bucketCount t := rfl
        rw [this]
        unfold Tab.bucketCount
        have := Nat.pow_le_pow_right (show 0 < 2 by decide) (show t.tb ≤ 63 by omega)
        have : (2 : Nat) ^ 63 < NPOS := by decide
        split <;> omega
      unfold Tab.invalid
      rw [if_neg (fun h => by have := h.2.1; simp only [Nav.end_] at this; omega), if_pos (show _ ≤ Nav.end_.bucket by simp only [Nav.end_]; omega)]
    simp only [Tab.navEq, hinv, hend, ok_bind]
    cases hn : Tab.invalid g { t with ovf := o' } n with
    | error e => rfl
    | ok iv =>
      cases iv with
      | true => rfl
      | false =>
        have c1 := checkValid_ok hn
        have c2 := checkValid_ok ((hinv n).trans hn)
        simp only [ok_bind, Tab.keyAt, Tab.valueAt, c1, c2]
        simp only [Cfg.withOv, h.size]
        have bc : ∀ x : O, Tab.bucketCount { t with ovf := x } = t.bucketCount := fun _ => rfl
        rcases invalid_false hn with ⟨h1, h2, h3⟩ | h1
        · have h2 : n.bucket = t.bucketCount := h2
          have h1 : 0 < g.ov.size o' := h1
          have h3 : g.ov.validPosition o' n.pos = true := h3
          simp only [bc, h1, h2, and_self, if_true, h.key _ h3, h.read _ h3]
          rfl
        · have h1 : n.bucket < t.bucketCount := h1
          have h2 : ¬ n.bucket = t.bucketCount := by omega
          simp only [bc, h2, and_false, if_false]
          rfl

end SC
