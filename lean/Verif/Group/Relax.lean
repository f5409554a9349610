import Verif.Group.Serial
/-!
# Erasing in a table that has been read from a stream

The arrays of such a table have no spare word, and `core_group::erase` reads one entry behind the last one.  All other functions stay within
the arrays.  To say what they do although `eraseAt` is not lawful with strict checking, the table is compared with one
whose `eraseAt` does not check.
-/
namespace SC

/-! ## Without checks nothing else happens -/

theorem guardB_relax {st : Bool} {m : Buf} {hi : Nat} {u : Unit} (h : guardB st m hi = .ok u) : guardB false m hi = .ok u := by
  cases u
  simp [guardB]

theorem readInt_relax {st : Bool} {m : Buf} {base off len v : Nat} (h : readInt st m base off len = .ok v) :
    readInt false m base off len = .ok v := by
  unfold readInt at h ⊢
  obtain ⟨_, h1, h2⟩ := bind_eq_ok h
  rw [guardB_relax h1, ok_bind]
  by_cases ho : off + len > 64
  · simp only [if_pos ho] at h2 ⊢
    obtain ⟨_, h3, h4⟩ := bind_eq_ok h2
    rw [guardB_relax h3]
    exact h4
  · simp only [if_neg ho] at h2 ⊢
    exact h2

theorem writeInt_relax {st : Bool} {m m' : Buf} {base x off len : Nat} (h : writeInt st m base x off len = .ok m') :
    writeInt false m base x off len = .ok m' := by
  unfold writeInt at h ⊢
  obtain ⟨_, h1, h2⟩ := bind_eq_ok h
  rw [guardB_relax h1, ok_bind]
  by_cases ho : off + len > 64
  · simp only [if_pos ho] at h2 ⊢
    obtain ⟨_, h3, h4⟩ := bind_eq_ok h2
    rw [guardB_relax h3]
    exact h4
  · simp only [if_neg ho] at h2 ⊢
    exact h2

theorem moveChunks_relax {st : Bool} : ∀ n {m : Buf} {rd wr : Cursor} {r : Buf × Cursor × Cursor}, moveChunks st m rd wr n = .ok r →
    moveChunks false m rd wr n = .ok r := by
  intro n
  induction n with
  | zero => intro m rd wr r h; exact h
  | succ n ih =>
    intro m rd wr r h
    simp only [moveChunks, readIntAndMove, writeIntAndMove] at h ⊢
    obtain ⟨_, h1, h2⟩ := bind_eq_ok h
    obtain ⟨v, h3, h4⟩ := bind_eq_ok h1
    obtain ⟨_, h5, h6⟩ := bind_eq_ok h2
    obtain ⟨m', h7, h8⟩ := bind_eq_ok h5
    cases h4
    cases h8
    simp only [readInt_relax h3, ok_bind, pure_eq_ok, writeInt_relax h7]
    exact ih h6

theorem moveBits_relax {st : Bool} {m m' : Buf} {rd wr : Cursor} {n : Nat} (h : moveBits st m rd wr n = .ok m') :
    moveBits false m rd wr n = .ok m' := by
  unfold moveBits at h ⊢
  obtain ⟨⟨m1, rd1, wr1⟩, h1, h2⟩ := bind_eq_ok h
  rw [moveChunks_relax _ h1, ok_bind]
  by_cases hn : n - n / 64 * 64 > 0
  · simp only [if_pos hn, readIntAndMove, writeIntAndMove] at h2 ⊢
    obtain ⟨_, h1, h2⟩ := bind_eq_ok h2
    obtain ⟨v, h3, h4⟩ := bind_eq_ok h1
    obtain ⟨_, h5, h6⟩ := bind_eq_ok h2
    obtain ⟨m', h7, h8⟩ := bind_eq_ok h5
    cases h4
    cases h8
    simp only [readInt_relax h3, ok_bind, pure_eq_ok, writeInt_relax h7]
    exact h6
  · simp only [if_neg hn] at h2 ⊢
    exact h2

/-- the environment without checks -/
abbrev GrpCfg.flat (c : GrpCfg) : GrpCfg := { c with strict := false }

theorem coreErase_relax {c : GrpCfg} {b b' : VarB} {idx w len : Nat} (h : coreErase c b idx w len = .ok b') :
    coreErase c.flat b idx w len = .ok b' := by
  unfold coreErase at h ⊢
  obtain ⟨m, h1, h2⟩ := bind_eq_ok h
  obtain ⟨m', h3, h4⟩ := bind_eq_ok h2
  rw [h1, ok_bind, moveBits_relax h3]
  exact h4

theorem groupErase_relax {c : GrpCfg} {x y : Group} {bpg i pos qw vw : Nat} (h : x.erase c bpg i pos qw vw = .ok y) :
    x.erase c.flat bpg i pos qw vw = .ok y := by
  unfold Group.erase at h ⊢
  obtain ⟨s, h1, h2⟩ := bind_eq_ok h
  obtain ⟨e, h3, h4⟩ := bind_eq_ok h2
  obtain ⟨ks, h5, h6⟩ := bind_eq_ok h4
  obtain ⟨vs, h7, h8⟩ := bind_eq_ok h6
  have a1 : (if i = 0 then .ok 0 else x.pos c.flat (if i = 0 then 0 else i - 1) : Res Nat) = .ok s := h1
  have a2 : x.pos c.flat i = .ok e := h3
  simp only [a1, a2, ok_bind, coreErase_relax h5, coreErase_relax h7]
  exact h8

theorem eraseAt_relax {c : GrpCfg} (s : GrpStore) (d : Dim) (b i : Nat) (r : GrpStore) (h : (grpOps c).eraseAt s d b i = .ok r) :
    (grpOps c.flat).eraseAt s d b i = .ok r := by
  simp only [grpOps, Group.remove] at h ⊢
  obtain ⟨x, h1, h2⟩ := bind_eq_ok h
  obtain ⟨y, h3, h4⟩ := bind_eq_ok h2
  obtain ⟨z, h5, h6⟩ := bind_eq_ok h3
  rw [h1, ok_bind, groupErase_relax h5, ok_bind, h6]
  exact h4

theorem GrpCfg.flat_eq {c : GrpCfg} (h : c.strict = false) : c.flat = c := by
  cases c
  cases h
  rfl

theorem grpMapE_self {c : GrpCfg} {hk : HashKind} (h : c.strict = false) : grpMapE c c.flat hk = grpMap c hk := by
  rw [c.flat_eq h, grpMapE]
  exact withErase_self

end SC
