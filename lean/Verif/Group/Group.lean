import Verif.Group.Border
import Verif.Table.Ops
/-!
# `keyvalue_group`

Several consecutive buckets in one array of quotients and one array of values.  `internal_t` is `uint64_t`, the default.
-/
namespace SC

/-- a group, grp:375-380 without the members for debugging -/
structure Group where
  size : Nat
  keys : VarB
  vals : VarB
  border : Option Border

/-- the default constructor, and the state after `clear()`, grp:435 and 453-460 -/
def Group.none : Group := { size := 0, keys := Option.none, vals := Option.none, border := Option.none }

/-- `initialize(groupsize, key_width, valuewidth)`, grp:463-488 -/
def Group.init (c : GrpCfg) (bpg qw vw : Nat) : Res Group := do
  let b ← borderInit c bpg
  return { size := 0, keys := coreInit qw, vals := coreInit vw, border := some b }

/-- access to `m_border` -/
def Group.getBorder (x : Group) : Res Border :=
  match x.border with
  | some b => .ok b
  | Option.none => .error .null

/-- `find_group_position(groupindex)`, grp:504-515 -/
def Group.pos (c : GrpCfg) (x : Group) (g : Nat) : Res Nat := do
  let b ← x.getBorder
  b.find c.bmi g

/-- `bucketsize(i)`, grp:442-449 -/
def Group.bucketsize (c : GrpCfg) (x : Group) (i : Nat) : Res Nat := do
  if x.size = 0 then return 0
  let prev ← (if i = 0 then .ok 0 else do
    let p ← x.pos c (i - 1)
    return sub64 p (i - 1) : Res Nat)
  let e ← x.pos c i
  return sub64 (sub64 e i) prev

/-- `push_back(buckets_per_group, groupindex, key, key_width, value, valuewidth)`, grp:517-546 -/
def Group.push (c : GrpCfg) (x : Group) (bpg g key qw val vw : Nat) : Res Group := do
  let e ← x.pos c g
  let keys ← coreInsert c x.keys (sub64 e g) key qw x.size
  let vals ← coreInsert c x.vals (sub64 e g) val vw x.size
  let size := (x.size + 1) % 2 ^ 32
  let b ← x.getBorder
  let b ← b.push c bpg size e
  return { size := size, keys := keys, vals := vals, border := some b }

/-- `erase(buckets_per_group, groupindex, position, key_width, valuewidth)`, grp:565-617 -/
def Group.erase (c : GrpCfg) (x : Group) (bpg g pos qw vw : Nat) : Res Group := do
  let prev := if g = 0 then 0 else g - 1
  let start ← (if g = 0 then .ok 0 else x.pos c prev : Res Nat)
  let idx := (sub64 start prev + pos) % W64
  let e ← x.pos c g
  let keys ← coreErase c x.keys idx qw x.size
  let vals ← coreErase c x.vals idx vw x.size
  let b ← x.getBorder
  let b ← b.erase bpg x.size e
  return { size := (x.size + 2 ^ 32 - 1) % 2 ^ 32, keys := keys, vals := vals, border := some b }

/-- `group_begin` in `read_key`, `read_value`, `write_value`, `read` and `find`, grp:639, 644, 649, 655, 668 -/
def Group.start (c : GrpCfg) (x : Group) (g : Nat) : Res Nat :=
  if g = 0 then .ok 0
  else do
    let p ← x.pos c (g - 1)
    return (p + 1) % W64

/-- `read_key(groupindex, position, key_width)`, grp:637-641 -/
def Group.readKey (c : GrpCfg) (x : Group) (g pos qw : Nat) : Res Nat := do
  let s ← x.start c g
  coreRead c x.keys (sub64 (s + pos) g) qw

/-- `read_value(groupindex, position, valuewidth)`, grp:642-646 -/
def Group.readValue (c : GrpCfg) (x : Group) (g pos vw : Nat) : Res Nat := do
  let s ← x.start c g
  coreRead c x.vals (sub64 (s + pos) g) vw

/-- `write_value(groupindex, position, value, valuewidth)`, grp:647-651 -/
def Group.writeValue (c : GrpCfg) (x : Group) (g pos val vw : Nat) : Res Group := do
  let s ← x.start c g
  let vals ← coreWrite c x.vals (sub64 (s + pos) g) val vw
  return { x with vals := vals }

/-- `find(groupindex, key, key_width)`, grp:666-674 -/
def Group.find (c : GrpCfg) (x : Group) (g key qw : Nat) : Res Nat := do
  let s ← x.start c g
  let e ← x.pos c g
  if e = s then return NPOS
  let r ← coreFind c x.keys (sub64 s g) key (sub64 e g) qw
  return if r = NPOS then NPOS else sub64 r (sub64 s g)

/-! ## Concatenation of buckets -/

/-- the first `n` buckets one after the other -/
def flat (cs : Cont) : Nat → List (Nat × Nat)
  | 0 => []
  | n + 1 => flat cs n ++ cs n

theorem flat_length (cs : Cont) (n : Nat) : (flat cs n).length = pre (fun g => (cs g).length) n := by
  induction n with
  | zero => rfl
  | succ n ih => simp [flat, pre, ih]

theorem flat_congr {cs cs' : Cont} {n : Nat} (h : ∀ i, i < n → cs i = cs' i) : flat cs n = flat cs' n := by
  induction n with
  | zero => rfl
  | succ n ih => simp only [flat]; rw [ih (fun i hi => h i (by omega)), h n (by omega)]

/-- replacing one bucket -/
theorem flat_split (cs : Cont) {g n : Nat} (hg : g < n) :
    ∃ tail, ∀ ys, flat (upd cs g ys) n = flat cs g ++ (ys ++ tail) := by
  induction n with
  | zero => omega
  | succ n ih =>
    by_cases h : g = n
    · subst h
      refine ⟨[], fun ys => ?_⟩
      simp only [flat, upd_same, List.append_nil]
      rw [flat_congr (cs' := cs)]
      intro i hi
      exact upd_other _ _ (by omega)
    · obtain ⟨tail, ht⟩ := ih (by omega)
      refine ⟨tail ++ cs n, fun ys => ?_⟩
      simp only [flat]
      rw [ht, upd_other _ _ (by omega)]
      simp

theorem upd_self {α : Type} (f : Nat → α) (i : Nat) : upd f i (f i) = f := by
  funext j; simp only [upd]; split
  · rename_i h; rw [h]
  · rfl

theorem insertIdx_append (as bs : List (Nat × Nat)) (x : Nat × Nat) :
    (as ++ bs).insertIdx as.length x = as ++ x :: bs := by
  induction as with
  | nil => simp
  | cons a as ih => simp [ih]

theorem map_insertIdx {α β : Type} (f : α → β) (x : α) : ∀ (l : List α) (n : Nat),
    (l.insertIdx n x).map f = (l.map f).insertIdx n (f x) := by
  intro l
  induction l with
  | nil => intro n; cases n <;> simp
  | cons a l ih => intro n; cases n <;> simp [ih]

variable {cs : Cont} {g n : Nat}

theorem flat_push (hg : g < n) (x : Nat × Nat) :
    flat (upd cs g (cs g ++ [x])) n = (flat cs n).insertIdx (flat cs (g + 1)).length x := by
  obtain ⟨tail, ht⟩ := flat_split cs hg
  have h0 := ht (cs g)
  rw [upd_self] at h0
  rw [ht, h0]
  have : flat cs g ++ (cs g ++ tail) = flat cs (g + 1) ++ tail := by simp [flat]
  rw [this, insertIdx_append]
  simp [flat]

theorem flat_get (hg : g < n) {i : Nat} (hi : i < (cs g).length) :
    ∃ h : (flat cs g).length + i < (flat cs n).length, (flat cs n)[(flat cs g).length + i] = (cs g)[i] := by
  obtain ⟨tail, ht⟩ := flat_split cs hg
  have h0 := ht (cs g)
  rw [upd_self] at h0
  rw [h0]
  refine ⟨by simp; omega, ?_⟩
  rw [List.getElem_append_right (by omega)]
  simp only [Nat.add_sub_cancel_left]
  rw [List.getElem_append_left hi]

theorem flat_erase (hg : g < n) {i : Nat} (hi : i < (cs g).length) :
    flat (upd cs g ((cs g).eraseIdx i)) n = (flat cs n).eraseIdx ((flat cs g).length + i) := by
  obtain ⟨tail, ht⟩ := flat_split cs hg
  have h0 := ht (cs g)
  rw [upd_self] at h0
  rw [ht, h0, List.eraseIdx_append_of_length_le (by omega), Nat.add_sub_cancel_left, List.eraseIdx_append_of_lt_length hi]

theorem flat_set (hg : g < n) {i : Nat} (hi : i < (cs g).length) (x : Nat × Nat) :
    flat (upd cs g ((cs g).set i x)) n = (flat cs n).set ((flat cs g).length + i) x := by
  obtain ⟨tail, ht⟩ := flat_split cs hg
  have h0 := ht (cs g)
  rw [upd_self] at h0
  rw [ht, h0, List.set_append_right _ _ (by omega), Nat.add_sub_cancel_left, List.set_append_left _ _ hi]

theorem flat_slice (hg : g < n) : ((flat cs n).drop (flat cs g).length).take (cs g).length = cs g := by
  obtain ⟨tail, ht⟩ := flat_split cs hg
  have h0 := ht (cs g)
  rw [upd_self] at h0
  rw [h0, List.drop_left, List.take_left]

theorem flat_succ : (flat cs (g + 1)).length = (flat cs g).length + (cs g).length := by simp [flat]

theorem flat_le (hg : g ≤ n) : (flat cs g).length ≤ (flat cs n).length := by
  rw [flat_length, flat_length]; exact pre_mono _ hg

/-! ## Behaviour -/

/-- the group holds the buckets `cs` -/
structure GroupRep (sp : Bool) (x : Group) (bpg qw vw : Nat) (cs : Cont) : Prop where
  size : x.size = (flat cs bpg).length
  lt : (flat cs bpg).length < 2 ^ 32
  out : ∀ g, bpg ≤ g → cs g = []
  keys : CoreRep sp x.keys qw ((flat cs bpg).map Prod.fst)
  vals : CoreRep sp x.vals vw ((flat cs bpg).map Prod.snd)
  border : ∃ b, x.border = some b ∧ BorderRep b bpg (flat cs bpg).length (fun g => (cs g).length)

variable {c : GrpCfg} {sp : Bool} {x : Group} {bpg qw vw : Nat}

theorem sub64_eq {a b : Nat} (h : b ≤ a) (ha : a < W64) : sub64 a b = a - b := by
  unfold sub64
  rw [show W64 = 18446744073709551616 from rfl] at *
  omega

theorem W64_eq : W64 = 18446744073709551616 := rfl

/-- `find_group_position` -/
theorem GroupRep.pos (h : GroupRep sp x bpg qw vw cs) (hb : bpg ≤ 255) {g : Nat} (hg : g < bpg) :
    x.pos c g = .ok ((flat cs (g + 1)).length + g) := by
  obtain ⟨b, h1, h2⟩ := h.border
  unfold Group.pos Group.getBorder
  rw [h1]
  simp only [ok_bind]
  rw [h2.find c.bmi (by omega) (by omega), flat_length]

theorem GroupRep.start (h : GroupRep sp x bpg qw vw cs) (hb : bpg ≤ 255) {g : Nat} (hg : g < bpg) :
    x.start c g = .ok ((flat cs g).length + g) := by
  unfold Group.start
  by_cases h0 : g = 0
  · subst h0; rfl
  · rw [if_neg h0, h.pos hb (by omega), ok_bind]
    have h1 := flat_le (cs := cs) (show g ≤ bpg by omega)
    have h2 := h.lt
    rw [show g - 1 + 1 = g by omega, pure_eq_ok]
    congr 1
    rw [W64_eq, Nat.mod_eq_of_lt] <;> omega

theorem GroupRep.bucketsize (h : GroupRep sp x bpg qw vw cs) (hb : bpg ≤ 255) {g : Nat} (hg : g < bpg) :
    x.bucketsize c g = .ok (cs g).length := by
  have h1 := flat_le (cs := cs) (show g + 1 ≤ bpg by omega)
  have h2 := h.lt
  have h3 := flat_succ (cs := cs) (g := g)
  unfold Group.bucketsize
  by_cases h0 : x.size = 0
  · have := h.size
    simp only [h0, if_true, pure_eq_ok]
    refine congrArg Except.ok ?_
    omega
  · simp only [h0, if_false]
    by_cases hg0 : g = 0
    · subst hg0
      rw [if_pos rfl, ok_bind, h.pos hb hg, ok_bind, pure_eq_ok]
      refine congrArg Except.ok ?_
      have : (flat cs 0).length = 0 := rfl
      rw [sub64_eq (a := (flat cs (0 + 1)).length + 0) (by omega) (by rw [W64_eq]; omega),
        sub64_eq (by omega) (by rw [W64_eq]; omega)]
      omega
    · rw [if_neg hg0, h.pos hb (show g - 1 < bpg by omega), ok_bind, pure_eq_ok, ok_bind, h.pos hb hg, ok_bind, pure_eq_ok]
      refine congrArg Except.ok ?_
      rw [show g - 1 + 1 = g by omega]
      rw [sub64_eq (a := (flat cs (g + 1)).length + g) (by omega) (by rw [W64_eq]; omega),
        sub64_eq (b := g - 1) (by omega) (by rw [W64_eq]; omega), sub64_eq (by omega) (by rw [W64_eq]; omega)]
      omega

theorem GroupRep.init (c : GrpCfg) (sp : Bool) (bpg qw vw : Nat) :
    ∃ x, Group.init c bpg qw vw = .ok x ∧ GroupRep sp x bpg qw vw (fun _ => []) ∧ x.border ≠ Option.none := by
  obtain ⟨b, h1, h2⟩ := BorderRep.init c bpg
  have hf : ∀ n, flat (fun _ => []) n = [] := by
    intro n
    induction n with
    | zero => rfl
    | succ n ih => simp [flat, ih]
  unfold Group.init
  rw [h1, ok_bind]
  refine ⟨_, rfl, ⟨by rw [hf]; rfl, by rw [hf]; exact Nat.two_pow_pos 32, fun _ _ => rfl, by rw [hf]; exact coreInit_rep sp qw,
    by rw [hf]; exact coreInit_rep sp vw, b, rfl, by rw [hf]; exact h2⟩, by simp⟩

theorem GroupRep.push (h : GroupRep sp x bpg qw vw cs) (hb : bpg ≤ 255) (hqw : 1 ≤ qw) (hvw : 1 ≤ vw) {g : Nat}
    (hg : g < bpg) (hlt : (flat cs bpg).length + 1 < 2 ^ 32) (q v : Nat) :
    ∃ y, x.push c bpg g q qw v vw = .ok y ∧
      GroupRep true y bpg qw vw (upd cs g (cs g ++ [(q % 2 ^ qw, v % 2 ^ vw)])) ∧ y.border ≠ Option.none := by
  have h1 := flat_le (cs := cs) (show g + 1 ≤ bpg by omega)
  have h2 := h.lt
  obtain ⟨b, b1, b2⟩ := h.border
  have hs : sub64 ((flat cs (g + 1)).length + g) g = (flat cs (g + 1)).length := by
    rw [sub64_eq (by omega) (by rw [W64_eq]; omega)]; omega
  obtain ⟨k', k1, k2⟩ := coreInsert_eq (c := c) hqw h.keys (idx := (flat cs (g + 1)).length) (by simpa using h1) q
  obtain ⟨v', v1, v2⟩ := coreInsert_eq (c := c) hvw h.vals (idx := (flat cs (g + 1)).length) (by simpa using h1) v
  obtain ⟨b', b3, b4⟩ := b2.push c hg
  rw [List.length_map] at k1 v1
  have hl := flat_push (cs := cs) hg (q % 2 ^ qw, v % 2 ^ vw)
  have hlen : (flat (upd cs g (cs g ++ [(q % 2 ^ qw, v % 2 ^ vw)])) bpg).length = (flat cs bpg).length + 1 := by
    rw [hl, List.length_insertIdx_of_le_length h1]
  unfold Group.push
  rw [h.pos hb hg, ok_bind, hs, h.size, k1, ok_bind, v1, ok_bind]
  simp only [Group.getBorder, b1, ok_bind]
  rw [Nat.mod_eq_of_lt (by omega)]
  rw [flat_length cs (g + 1), b3, ok_bind]
  refine ⟨_, rfl, ⟨hlen.symm, by rw [hlen]; omega, ?_, ?_, ?_, b', rfl, ?_⟩, by simp⟩
  · intro k hk; rw [upd_other _ _ (by omega)]; exact h.out k hk
  · rw [hl, map_insertIdx]; exact k2
  · rw [hl, map_insertIdx]; exact v2
  · rw [hlen]
    have : (fun k => (upd cs g (cs g ++ [(q % 2 ^ qw, v % 2 ^ vw)]) k).length) =
        upd (fun k => (cs k).length) g ((cs g).length + 1) := by
      funext k
      simp only [upd]
      split
      · simp
      · rfl
    rw [this]
    exact b4

theorem GroupRep.erase (h : GroupRep sp x bpg qw vw cs) (hsp : c.strict = true → sp = true) (hb : bpg ≤ 255) (hqw : 1 ≤ qw)
    (hvw : 1 ≤ vw) {g : Nat} (hg : g < bpg) {i : Nat} (hi : i < (cs g).length) :
    ∃ y, x.erase c bpg g i qw vw = .ok y ∧ GroupRep sp y bpg qw vw (upd cs g ((cs g).eraseIdx i)) ∧ y.border ≠ Option.none := by
  have h1 := flat_le (cs := cs) (show g + 1 ≤ bpg by omega)
  have h2 := h.lt
  have h3 := flat_succ (cs := cs) (g := g)
  obtain ⟨b, b1, b2⟩ := h.border
  have hidx : (flat cs g).length + i < (flat cs bpg).length := by omega
  obtain ⟨k', k1, k2⟩ := coreErase_eq (c := c) hqw h.keys hsp (i := (flat cs g).length + i) (by simpa using hidx)
  obtain ⟨v', v1, v2⟩ := coreErase_eq (c := c) hvw h.vals hsp (i := (flat cs g).length + i) (by simpa using hidx)
  obtain ⟨b', b3, b4⟩ := b2.erase hg (by show 0 < (cs g).length; omega)
  rw [List.length_map] at k1 v1
  have hl := flat_erase hg hi
  have hlen : (flat (upd cs g ((cs g).eraseIdx i)) bpg).length = (flat cs bpg).length - 1 := by
    rw [hl, List.length_eraseIdx_of_lt hidx]
  -- the index
  have hst : (if g = 0 then .ok 0 else x.pos c (if g = 0 then 0 else g - 1) : Res Nat) =
      .ok ((flat cs g).length + (if g = 0 then 0 else g - 1)) := by
    by_cases hg0 : g = 0
    · subst hg0; rfl
    · rw [if_neg hg0, if_neg hg0, h.pos hb (by omega), show g - 1 + 1 = g by omega]
  have hix : (sub64 ((flat cs g).length + (if g = 0 then 0 else g - 1)) (if g = 0 then 0 else g - 1) + i) % W64 =
      (flat cs g).length + i := by
    have : (if g = 0 then 0 else g - 1) ≤ g := by split <;> omega
    rw [sub64_eq (by omega) (by rw [W64_eq]; omega), Nat.add_sub_cancel, Nat.mod_eq_of_lt (by rw [W64_eq]; omega)]
  unfold Group.erase
  simp only
  rw [hst, ok_bind, hix, h.pos hb hg, ok_bind, h.size, k1, ok_bind, v1, ok_bind]
  simp only [Group.getBorder, b1, ok_bind]
  rw [flat_length cs (g + 1), b3, ok_bind]
  have hsz : ((flat cs bpg).length + 2 ^ 32 - 1) % 2 ^ 32 = (flat cs bpg).length - 1 := by omega
  refine ⟨_, rfl, ⟨by rw [hlen]; exact hsz, by rw [hlen]; omega, ?_, ?_, ?_, b', rfl, ?_⟩, by simp⟩
  · intro k hk; rw [upd_other _ _ (by omega)]; exact h.out k hk
  · rw [hl, map_eraseIdx]; exact k2
  · rw [hl, map_eraseIdx]; exact v2
  · rw [hlen]
    have : (fun k => (upd cs g ((cs g).eraseIdx i) k).length) = upd (fun k => (cs k).length) g ((cs g).length - 1) := by
      funext k
      simp only [upd]
      split
      · rw [List.length_eraseIdx_of_lt hi]
      · rfl
    rw [this]
    exact b4

theorem GroupRep.index (h : GroupRep sp x bpg qw vw cs) (hb : bpg ≤ 255) {g : Nat} (hg : g < bpg) {i : Nat} (hi : i < (cs g).length) :
    sub64 ((flat cs g).length + g + i) g = (flat cs g).length + i := by
  have h1 := flat_le (cs := cs) (show g + 1 ≤ bpg by omega)
  have h2 := h.lt
  have h3 := flat_succ (cs := cs) (g := g)
  rw [sub64_eq (by omega) (by rw [W64_eq]; omega)]; omega

theorem GroupRep.readKey (h : GroupRep sp x bpg qw vw cs) (hb : bpg ≤ 255) (hqw : 1 ≤ qw) {g : Nat} (hg : g < bpg) {i : Nat}
    (hi : i < (cs g).length) : x.readKey c g i qw = .ok (cs g)[i].1 := by
  obtain ⟨h1, h2⟩ := flat_get hg hi
  unfold Group.readKey
  rw [h.start hb hg, ok_bind, h.index hb hg hi, coreRead_eq hqw h.keys (by simpa using h1)]
  simp [h2]

theorem GroupRep.readValue (h : GroupRep sp x bpg qw vw cs) (hb : bpg ≤ 255) (hvw : 1 ≤ vw) {g : Nat} (hg : g < bpg) {i : Nat}
    (hi : i < (cs g).length) : x.readValue c g i vw = .ok (cs g)[i].2 := by
  obtain ⟨h1, h2⟩ := flat_get hg hi
  unfold Group.readValue
  rw [h.start hb hg, ok_bind, h.index hb hg hi, coreRead_eq hvw h.vals (by simpa using h1)]
  simp [h2]

theorem GroupRep.writeValue (h : GroupRep sp x bpg qw vw cs) (hb : bpg ≤ 255) (hvw : 1 ≤ vw) {g : Nat} (hg : g < bpg) {i : Nat}
    (hi : i < (cs g).length) (v : Nat) : ∃ y, x.writeValue c g i v vw = .ok y ∧
      GroupRep sp y bpg qw vw (upd cs g ((cs g).set i ((cs g)[i].1, v % 2 ^ vw))) ∧ y.border = x.border := by
  obtain ⟨h1, h2⟩ := flat_get hg hi
  obtain ⟨v', v1, v2⟩ := coreWrite_eq (c := c) hvw h.vals (i := (flat cs g).length + i) (by simpa using h1) v
  obtain ⟨b, b1, b2⟩ := h.border
  have hl := flat_set hg hi ((cs g)[i].1, v % 2 ^ vw)
  have hlen : (flat (upd cs g ((cs g).set i ((cs g)[i].1, v % 2 ^ vw))) bpg).length = (flat cs bpg).length := by
    rw [hl, List.length_set]
  unfold Group.writeValue
  rw [h.start hb hg, ok_bind, h.index hb hg hi, v1, ok_bind]
  refine ⟨_, rfl, ⟨by rw [hlen]; exact h.size, by rw [hlen]; exact h.lt, ?_, ?_, ?_, b, b1, ?_⟩, rfl⟩
  · intro k hk; rw [upd_other _ _ (by omega)]; exact h.out k hk
  · rw [hl, List.map_set]
    have : ((flat cs bpg).map Prod.fst).set ((flat cs g).length + i) (cs g)[i].1 = (flat cs bpg).map Prod.fst := by
      apply List.ext_getElem (by simp)
      intro j hj1 hj2
      rw [List.getElem_set]
      split
      · rename_i e; subst e; simp [h2]
      · rfl
    rw [this]
    exact h.keys
  · rw [hl, List.map_set]; exact v2
  · rw [hlen]
    have : (fun k => (upd cs g ((cs g).set i ((cs g)[i].1, v % 2 ^ vw)) k).length) = fun k => (cs k).length := by
      funext k
      simp only [upd]
      split
      · rename_i e; rw [List.length_set, e]
      · rfl
    rw [this]
    exact b2

theorem GroupRep.find (h : GroupRep sp x bpg qw vw cs) (hb : bpg ≤ 255) (hqw : 1 ≤ qw) (hqw2 : qw ≤ 64) {g : Nat}
    (hg : g < bpg) (q : Nat) : x.find c g q qw = .ok (posOf ((cs g).map Prod.fst) q) := by
  have h1 := flat_le (cs := cs) (show g + 1 ≤ bpg by omega)
  have h2 := h.lt
  have h3 := flat_succ (cs := cs) (g := g)
  unfold Group.find
  rw [h.start hb hg, ok_bind, h.pos hb hg, ok_bind]
  by_cases h0 : (flat cs (g + 1)).length + g = (flat cs g).length + g
  · rw [if_pos h0, pure_eq_ok]
    have : cs g = [] := List.eq_nil_of_length_eq_zero (by omega)
    rw [this]; rfl
  · rw [if_neg h0, sub64_eq (by omega) (by rw [W64_eq]; omega), sub64_eq (by omega) (by rw [W64_eq]; omega),
      Nat.add_sub_cancel, Nat.add_sub_cancel, coreFind_eq hqw hqw2 h.keys (by omega) (by simpa using h1), ok_bind, pure_eq_ok]
    have hs : (((flat cs bpg).map Prod.fst).drop (flat cs g).length).take ((flat cs (g + 1)).length - (flat cs g).length) =
        (cs g).map Prod.fst := by
      rw [← List.map_drop, ← List.map_take, h3, Nat.add_sub_cancel_left, flat_slice hg]
    rw [hs]
    unfold posOf
    congr 1
    by_cases hm : q ∈ (cs g).map Prod.fst
    · have := List.idxOf_lt_length_of_mem hm
      rw [List.length_map] at this
      have hN : NPOS = 18446744073709551615 := rfl
      rw [if_pos hm, if_pos hm, if_neg (by omega), sub64_eq (by omega) (by rw [W64_eq]; omega)]
      omega
    · rw [if_neg hm, if_neg hm, if_pos rfl]

end SC
