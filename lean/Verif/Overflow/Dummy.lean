import Verif.Table.Ops
/-! # `dummy_overflow`, overflow.hpp:10-61 -/
namespace SC

/-- `dummy_overflow`: no state. -/
def dummyOverflow : OverflowOps Unit where
  new _ _ := ()
  resizeBuckets o _ := .ok o
  needConsult _ _ := .ok false
  size _ := 0
  capacity _ := 0
  firstPosition _ := 0
  nextPosition _ p := p
  previousPosition _ p := p
  validPosition _ _ := false
  clear o := o
  insert o _ _ _ := .ok (o, 0)
  find _ _ := .ok NPOS
  read _ _ := .ok 0
  write o _ _ := .ok o
  key _ _ := .ok 0
  erase o _ := .ok o

def DummyRep (_ : Unit) (_ : Nat) (l : List (Nat × Nat × Nat)) (full : Nat → Bool) : Prop := l = [] ∧ full = fun _ => false

theorem lawful_dummy (norm : Nat → Nat) : LawfulOverflow dummyOverflow norm DummyRep where
  new := fun _ _ => ⟨_, rfl, rfl⟩
  resize := fun _ _ _ _ _ _ => ⟨_, _, rfl, rfl, rfl⟩
  clear := fun _ _ _ _ _ => ⟨_, rfl, rfl⟩
  pos := by rintro o n l full e ⟨rfl, _⟩ he; simp at he
  pos_nodup := by rintro o n l full ⟨rfl, _⟩; simp
  size := by rintro o n l full ⟨rfl, _⟩; rfl
  consult := by rintro o n l full b ⟨_, rfl⟩ _; rfl
  walk := by rintro o n l full ⟨rfl, _⟩; rfl
  find_in := by rintro o n l full e ⟨rfl, _⟩ he; simp at he
  find_out := by intros; rfl
  read := by rintro o n l full e ⟨rfl, _⟩ he; simp at he
  key := by rintro o n l full e ⟨rfl, _⟩ he; simp at he
  insert := by intro o n l full b k v _ _ h; exact absurd h (by simp [dummyOverflow])
  write := by rintro o n l full v l₁ l₂ p k x ⟨rfl, _⟩ h _; simp at h
  erase := by rintro o n l full l₁ l₂ e ⟨rfl, _⟩ h; simp at h

end SC
