import Verif.Spec.Objects
import Verif.Own.Ao
/-!
# What objects of the class `array_overflow` should do

The value of an object: nothing, or a list of pairs and the number of pairs for which it has room.
-/
namespace SC
open Own

/-- `none`: an object without arrays; `some (n, l)`: the pairs `l` in arrays of `n` cells -/
abbrev AoVal := Option (Nat × List (Nat × Nat))

/-- value and answer after a statement -/
def aoStep : AoVal → AoOp → AoVal × AoAns
  | _, .renew => (some (256, []), .none)
  | _, .clear => (none, .none)
  | _, .load l => (some (l.length, l), .none)
  | none, _ => (none, .none)
  | some (n, l), .insert k v => (some (n, l ++ [(k, v)]), .num l.length)
  | some (n, l), .find k => (some (n, l), match l.find? (fun x => x.1 == k) with
    | some x => .pair ((l.map Prod.fst).idxOf k) x.2
    | none => .absent)
  | some (n, l), .at i => (some (n, l), match l[i]? with
    | some x => .pair x.1 x.2
    | none => .absent)
  | some (n, l), .set i v => (some (n, l.modify i (fun x => (x.1, v))), .none)
  | some (n, l), .erase i => (some (n, l.eraseIdx i), .none)
  | some (n, l), .size => (some (n, l), .num l.length)
  | some (n, l), .save => (some (n, l), .file l)

/-- objects of the class `array_overflow`; a new object in the sense of `OCmd.new` has no arrays yet -/
def aoObjects : ObjSpec AoVal AoOp AoAns := { init := none, step := aoStep }

/-- The statements that are covered.  An object without arrays can only be assigned to, cleared and read from a file
with at most 256 pairs.  Others must not be read from a file.
A key that is not in the arrays may be looked for only if the arrays have 256 cells.  Only the last pair is erased. -/
def AoOK : AoVal → AoOp → Prop
  | none, .renew => True
  | none, .clear => True
  | none, .load l => l.length ≤ 256
  | none, _ => False
  | some (n, l), .insert _ _ => l.length < n
  | some (n, l), .find k => k ∈ l.map Prod.fst ∨ 256 ≤ n
  | some (_, l), .at i => i < l.length
  | some (_, l), .set i _ => i < l.length
  | some (_, l), .erase i => i + 1 = l.length
  | some _, .load _ => False
  | some _, _ => True

instance : ∀ (m : AoVal) (op : AoOp), Decidable (AoOK m op)
  | none, .renew => .isTrue trivial
  | none, .clear => .isTrue trivial
  | none, .load l => inferInstanceAs (Decidable (l.length ≤ 256))
  | none, .insert _ _ => .isFalse id
  | none, .find _ => .isFalse id
  | none, .at _ => .isFalse id
  | none, .set _ _ => .isFalse id
  | none, .erase _ => .isFalse id
  | none, .size => .isFalse id
  | none, .save => .isFalse id
  | some (n, l), .insert _ _ => inferInstanceAs (Decidable (l.length < n))
  | some (n, l), .find k => inferInstanceAs (Decidable (k ∈ l.map Prod.fst ∨ 256 ≤ n))
  | some (_, l), .at i => inferInstanceAs (Decidable (i < l.length))
  | some (_, l), .set i _ => inferInstanceAs (Decidable (i < l.length))
  | some (_, l), .erase i => inferInstanceAs (Decidable (i + 1 = l.length))
  | some _, .load _ => .isFalse id
  | some _, .renew => .isTrue trivial
  | some _, .size => .isTrue trivial
  | some _, .clear => .isTrue trivial
  | some _, .save => .isTrue trivial

end SC
