import Verif.Table.Tab
import Verif.Group.Group
/-!
# The bucket storage of `group_chaining_table`

Bucket `b` is bucket `b % bpg` of group `b / bpg`, where `bpg` is `m_buckets_per_group`.  The copies kept for debugging (`m_plainkeys`,
`m_plainvalues`, `m_bucketsizes`) are not modelled.
-/
namespace SC

/-- the array `m_groups`, grp:732 -/
structure GrpStore where
  n : Nat
  grp : Nat → Group

/-- `m_groups[i]` -/
def GrpStore.get (s : GrpStore) (i : Nat) : Res Group := if i < s.n then .ok (s.grp i) else .error .oob

/-- replace `m_groups[i]` -/
def GrpStore.set (s : GrpStore) (i : Nat) (x : Group) : GrpStore := { s with grp := upd s.grp i x }

/-- `locate(bucket, quotient)`, grp:1123-1158 -/
def Group.locate (c : GrpCfg) (x : Group) (g q qw : Nat) : Res Nat :=
  if x.size = 0 then .ok NPOS else x.find c g q qw

/-- insertion into a group that is not full, grp:1229 and 1270: the group is initialized if `m_border` is null -/
def Group.insert (c : GrpCfg) (x : Group) (bpg g q qw v vw : Nat) : Res Group := do
  let x ← (if x.border.isNone then Group.init c bpg qw vw else .ok x : Res Group)
  x.push c bpg g q qw v vw

/-- erasure from a group, grp:1341 and 1355-1357: a group that becomes empty is cleared -/
def Group.remove (c : GrpCfg) (x : Group) (bpg g i qw vw : Nat) : Res Group := do
  let x ← x.erase c bpg g i qw vw
  return if x.size = 0 then Group.none else x

/-- the bucket storage of `group_chaining_table` -/
def grpOps (c : GrpCfg) : StoreOps GrpStore where
  -- grp:974, `bucketgroup(new_size)+1` groups
  alloc d := .ok { n := 2 ^ d.tb / d.bpg + 1, grp := fun _ => Group.none }
  -- grp:933-935
  size s d b := do
    let x ← s.get (b / d.bpg)
    x.bucketsize c (b % d.bpg)
  locate s d b q := do
    let x ← s.get (b / d.bpg)
    x.locate c (b % d.bpg) q d.qw
  -- grp:1208, `max_group_size()`, grp:913-915
  full s d b := do
    let x ← s.get (b / d.bpg)
    return x.size == 255
  push s d b q v := do
    let x ← s.get (b / d.bpg)
    let x ← x.insert c d.bpg (b % d.bpg) q d.qw v d.vw
    return s.set (b / d.bpg) x
  -- grp:863-866
  quotientAt s d b i := do
    let x ← s.get (b / d.bpg)
    x.readKey c (b % d.bpg) i d.qw
  -- grp:875
  valueAt s d b i := do
    let x ← s.get (b / d.bpg)
    x.readValue c (b % d.bpg) i d.vw
  -- grp:885
  writeValue s d b i v := do
    let x ← s.get (b / d.bpg)
    let x ← x.writeValue c (b % d.bpg) i v d.vw
    return s.set (b / d.bpg) x
  eraseAt s d b i := do
    let x ← s.get (b / d.bpg)
    let x ← x.remove c d.bpg (b % d.bpg) i d.qw d.vw
    return s.set (b / d.bpg) x
  -- grp:1279
  shrink s _ _ := .ok s

/-! ## Behaviour -/

/-- the buckets of group `j` -/
def localCont (bpg : Nat) (cont : Cont) (j : Nat) : Cont := fun g => if g < bpg then cont (j * bpg + g) else []

/-- a group within a table: cleared and without entries, or as described by `GroupRep` -/
def SlotRep (sp : Bool) (x : Group) (bpg qw vw : Nat) (cs : Cont) : Prop :=
  (x = Group.none ∧ ∀ g, cs g = []) ∨ (GroupRep sp x bpg qw vw cs ∧ (flat cs bpg).length ≤ 255)

/-- the storage holds the buckets `cont` -/
structure GrpRep (sp : Bool) (s : GrpStore) (d : Dim) (cont : Cont) : Prop where
  n : s.n = 2 ^ d.tb / d.bpg + 1
  out : ∀ b, 2 ^ d.tb ≤ b → cont b = []
  grp : ∀ j < s.n, SlotRep sp (s.grp j) d.bpg d.qw d.vw (localCont d.bpg cont j)

variable {c : GrpCfg} {sp : Bool} {d : Dim} {s : GrpStore} {cont : Cont}

theorem div_mod_bpg {b bpg : Nat} (h : 1 ≤ bpg) : b / bpg * bpg + b % bpg = b ∧ b % bpg < bpg :=
  ⟨by rw [Nat.mul_comm]; exact Nat.div_add_mod b bpg, Nat.mod_lt _ h⟩

theorem local_at {b bpg : Nat} (h : 1 ≤ bpg) : localCont bpg cont (b / bpg) (b % bpg) = cont b := by
  obtain ⟨h1, h2⟩ := div_mod_bpg (b := b) h
  unfold localCont
  rw [if_pos h2, h1]

theorem local_upd {b bpg : Nat} (h : 1 ≤ bpg) (ys : List (Nat × Nat)) (j : Nat) :
    localCont bpg (upd cont b ys) j =
      if j = b / bpg then upd (localCont bpg cont (b / bpg)) (b % bpg) ys else localCont bpg cont j := by
  obtain ⟨h1, h2⟩ := div_mod_bpg (b := b) h
  funext g
  by_cases hj : j = b / bpg
  · subst hj
    rw [if_pos rfl]
    simp only [localCont, upd]
    by_cases hg : g < bpg
    · rw [if_pos hg]
      by_cases he : g = b % bpg
      · rw [if_pos he, if_pos (by omega)]
      · rw [if_neg he, if_neg (by omega), if_pos hg]
    · rw [if_neg hg, if_neg (by omega), if_neg hg]
  · rw [if_neg hj]
    simp only [localCont, upd]
    by_cases hg : g < bpg
    · rw [if_pos hg, if_pos hg, if_neg]
      intro he
      apply hj
      rw [← he, Nat.mul_comm, Nat.mul_add_div (by omega), Nat.div_eq_of_lt hg, Nat.add_zero]
    · rw [if_neg hg, if_neg hg]

theorem GrpRep.get (h : GrpRep sp s d cont) {b : Nat} (hb : b < 2 ^ d.tb) :
    b / d.bpg < s.n ∧ s.get (b / d.bpg) = .ok (s.grp (b / d.bpg)) := by
  have h1 : b / d.bpg < s.n := by
    rw [h.n]
    have := Nat.div_le_div_right (c := d.bpg) (show b ≤ 2 ^ d.tb by omega)
    omega
  exact ⟨h1, by unfold GrpStore.get; rw [if_pos h1]⟩

theorem GrpRep.set (h : GrpRep sp s d cont) (hp : 1 ≤ d.bpg) {b : Nat} (hb : b < 2 ^ d.tb) {y : Group} {ys : List (Nat × Nat)}
    (hy : SlotRep sp y d.bpg d.qw d.vw (upd (localCont d.bpg cont (b / d.bpg)) (b % d.bpg) ys)) :
    GrpRep sp (s.set (b / d.bpg) y) d (upd cont b ys) where
  n := h.n
  out := by
    intro b' hb'
    rw [upd_other _ _ (by omega)]
    exact h.out b' hb'
  grp := by
    intro j hj
    show SlotRep sp (upd s.grp (b / d.bpg) y j) _ _ _ _
    rw [local_upd hp]
    by_cases he : j = b / d.bpg
    · rw [if_pos he, he, upd_same]; exact hy
    · rw [if_neg he, upd_other _ _ he]; exact h.grp j hj

theorem SlotRep.size {x : Group} {bpg qw vw : Nat} {cs : Cont} (h : SlotRep sp x bpg qw vw cs) :
    x.size = (flat cs bpg).length ∧ (flat cs bpg).length ≤ 255 := by
  rcases h with ⟨rfl, h⟩ | ⟨h, hle⟩
  · have : (flat cs bpg).length = 0 := by
      rw [flat_length]; exact pre_zero (fun g => by simp [h g]) _
    rw [this]; exact ⟨rfl, by omega⟩
  · exact ⟨h.size, hle⟩

theorem SlotRep.bucketsize {x : Group} {bpg qw vw : Nat} {cs : Cont} (h : SlotRep sp x bpg qw vw cs) (hb : bpg ≤ 255)
    {g : Nat} (hg : g < bpg) : x.bucketsize c g = .ok (cs g).length := by
  rcases h with ⟨rfl, h⟩ | ⟨h, _⟩
  · rw [h g]; rfl
  · exact h.bucketsize hb hg

/-- a bucket that is not empty lies in a group that has been initialized -/
theorem SlotRep.live {x : Group} {bpg qw vw : Nat} {cs : Cont} (h : SlotRep sp x bpg qw vw cs) {g i : Nat} (hi : i < (cs g).length) :
    GroupRep sp x bpg qw vw cs := by
  rcases h with ⟨rfl, h⟩ | ⟨h, _⟩
  · rw [h g] at hi; simp at hi
  · exact h

theorem pre_sum (f : Nat → Nat) (n : Nat) : pre f n = ((List.range n).map f).sum := by
  induction n with
  | zero => rfl
  | succ n ih => rw [List.range_succ, List.map_append, List.sum_append]; simp [pre, ih]

theorem pre_cut {f : Nat → Nat} {m n : Nat} (hmn : m ≤ n) (h : ∀ i, m ≤ i → f i = 0) : pre f n = pre f m := by
  induction n with
  | zero => rw [Nat.le_zero.mp hmn]
  | succ n ih =>
    by_cases e : m = n + 1
    · rw [e]
    · rw [pre, ih (by omega), h n (by omega), Nat.add_zero]

/-- the operations with `eraseAt` as in the environment `e` -/
def grpOpsE (c e : GrpCfg) : StoreOps GrpStore := { grpOps c with eraseAt := (grpOps e).eraseAt }

theorem lawful_grpE (c e : GrpCfg) (hsp : e.strict = true → sp = true) :
    LawfulStore (grpOpsE c e) (fun w v => v % 2 ^ w) (GrpRep sp) 255 64 64 where
  alloc := by
    intro d
    refine ⟨_, rfl, fun _ _ => ⟨rfl, fun _ _ => rfl, fun j _ => .inl ⟨rfl, fun g => ?_⟩⟩⟩
    unfold localCont; split <;> rfl
  size := by
    intro s d cont b hd h hb
    have h2 := h.get hb
    simp only [grpOpsE, grpOps, h2.2, ok_bind]
    have hp := hd.bpg_pos
    have hl := hd.bpg_le
    rw [(h.grp _ h2.1).bucketsize (by omega) (div_mod_bpg hp).2, local_at hp]
  locate := by
    intro s d cont b q hd h hb _
    have h2 := h.get hb
    have hp := hd.bpg_pos
    have hl := hd.bpg_le
    simp only [grpOpsE, grpOps, h2.2, ok_bind, Group.locate]
    have hs := h.grp _ h2.1
    have h3 := local_at (cont := cont) (b := b) hp
    by_cases h0 : (s.grp (b / d.bpg)).size = 0
    · rw [if_pos h0]
      have h4 : cont b = [] := by
        have := hs.size.1
        obtain ⟨_, h5⟩ := div_mod_bpg (b := b) hp
        have h6 := flat_le (cs := localCont d.bpg cont (b / d.bpg)) (show b % d.bpg + 1 ≤ d.bpg by omega)
        rw [flat_succ, h3] at h6
        exact List.eq_nil_of_length_eq_zero (by omega)
      rw [h4]; rfl
    · rw [if_neg h0]
      rcases hs with ⟨h4, _⟩ | ⟨h4, _⟩
      · rw [h4] at h0; exact absurd rfl h0
      · rw [h4.find (by omega) hd.qw_pos hd.qw_le_W (div_mod_bpg hp).2, h3]
  full := by
    intro s d cont b hd h hb
    have h2 := h.get hb
    have hp := hd.bpg_pos
    have hl := hd.bpg_le
    refine ⟨_, by simp only [grpOpsE, grpOps, h2.2, ok_bind, pure_eq_ok]; rfl, ?_⟩
    intro hf
    have hf : (s.grp (b / d.bpg)).size = 255 := by simpa using hf
    rw [(h.grp _ h2.1).size.1, flat_length] at hf
    obtain ⟨h3, h4⟩ := div_mod_bpg (b := b) hp
    -- the buckets of the group that exist
    obtain ⟨m, hm, hm1, hm2⟩ : ∃ m, m ≤ d.bpg ∧ (∀ i, i < m → b / d.bpg * d.bpg + i < 2 ^ d.tb) ∧
        (∀ i, m ≤ i → i < d.bpg → 2 ^ d.tb ≤ b / d.bpg * d.bpg + i) := by
      refine ⟨min d.bpg (2 ^ d.tb - b / d.bpg * d.bpg), Nat.min_le_left _ _, ?_, ?_⟩
      · intro i hi; have := Nat.min_le_right d.bpg (2 ^ d.tb - b / d.bpg * d.bpg); omega
      · intro i hi hi2
        have : min d.bpg (2 ^ d.tb - b / d.bpg * d.bpg) = 2 ^ d.tb - b / d.bpg * d.bpg := by omega
        omega
    refine ⟨(List.range m).map (fun i => b / d.bpg * d.bpg + i), ?_, ?_, by simp; omega, ?_, ?_⟩
    · exact List.Pairwise.map _ (fun x y h => by omega) List.nodup_range
    · refine List.mem_map.mpr ⟨b % d.bpg, ?_, h3⟩
      rw [List.mem_range]
      by_contra hn
      have := hm2 _ (by omega) h4
      omega
    · intro x hx
      obtain ⟨i, hi, rfl⟩ := List.mem_map.mp hx
      exact hm1 i (List.mem_range.mp hi)
    · rw [List.map_map, ← pre_sum]
      have e1 : pre ((fun x => (cont x).length) ∘ fun i => b / d.bpg * d.bpg + i) m =
          pre (fun g => (localCont d.bpg cont (b / d.bpg) g).length) m := by
        apply pre_congr
        intro i hi
        simp only [Function.comp, localCont]
        rw [if_pos (by omega)]
      have e2 := pre_cut (f := fun g => (localCont d.bpg cont (b / d.bpg) g).length) hm (by
        intro i hi
        simp only [localCont]
        split
        · rename_i hi2
          rw [h.out _ (hm2 i hi hi2)]; rfl
        · rfl)
      omega
  push := by
    intro s d cont b q v hd h hb hq hf _
    have h2 := h.get hb
    have hp := hd.bpg_pos
    have hl := hd.bpg_le
    obtain ⟨h3, h4⟩ := div_mod_bpg (b := b) hp
    have hs := h.grp _ h2.1
    have hlt : (flat (localCont d.bpg cont (b / d.bpg)) d.bpg).length < 255 := by
      simp only [grpOpsE, grpOps, h2.2, ok_bind, pure_eq_ok, Except.ok.injEq, beq_eq_false_iff_ne] at hf
      have := hs.size
      omega
    -- the group is initialized now
    obtain ⟨x, hx1, hx2⟩ : ∃ x, (if (s.grp (b / d.bpg)).border.isNone then Group.init c d.bpg d.qw d.vw
        else .ok (s.grp (b / d.bpg)) : Res Group) = .ok x ∧
        GroupRep sp x d.bpg d.qw d.vw (localCont d.bpg cont (b / d.bpg)) := by
      rcases hs with ⟨e, he⟩ | ⟨hg, _⟩
      · obtain ⟨x, hx1, hx2, _⟩ := GroupRep.init c sp d.bpg d.qw d.vw
        refine ⟨x, by rw [e]; exact hx1, ?_⟩
        have : localCont d.bpg cont (b / d.bpg) = fun _ => [] := funext he
        rw [this]; exact hx2
      · obtain ⟨bb, hbb, _⟩ := hg.border
        exact ⟨_, by rw [hbb]; rfl, hg⟩
    obtain ⟨y, hy1, hy2, _⟩ := hx2.push (c := c) (by omega) hd.qw_pos hd.vw_pos h4 (by omega) q v
    refine ⟨_, by simp only [grpOpsE, grpOps, h2.2, ok_bind, Group.insert, hx1, hy1, pure_eq_ok]; rfl, h.set hp hb (.inr ⟨?_, ?_⟩)⟩
    · rw [local_at hp, Nat.mod_eq_of_lt hq] at hy2
      cases sp with
      | true => exact hy2
      | false => exact ⟨hy2.size, hy2.lt, hy2.out, hy2.keys.weaken, hy2.vals.weaken, hy2.border⟩
    · rw [← local_at (cont := cont) (b := b) hp, flat_push h4]
      rw [List.length_insertIdx_of_le_length (flat_le (by omega))]
      omega
  quotientAt := by
    intro s d cont b i hd h hb hi
    have h2 := h.get hb
    have hp := hd.bpg_pos
    have hl := hd.bpg_le
    have h3 := local_at (cont := cont) (b := b) hp
    simp only [grpOpsE, grpOps, h2.2, ok_bind]
    have hi' : i < (localCont d.bpg cont (b / d.bpg) (b % d.bpg)).length := by rw [h3]; exact hi
    rw [((h.grp _ h2.1).live hi').readKey (by omega) hd.qw_pos (div_mod_bpg hp).2 hi']
    simp only [h3]
  valueAt := by
    intro s d cont b i hd h hb hi
    have h2 := h.get hb
    have hp := hd.bpg_pos
    have hl := hd.bpg_le
    have h3 := local_at (cont := cont) (b := b) hp
    simp only [grpOpsE, grpOps, h2.2, ok_bind]
    have hi' : i < (localCont d.bpg cont (b / d.bpg) (b % d.bpg)).length := by rw [h3]; exact hi
    rw [((h.grp _ h2.1).live hi').readValue (by omega) hd.vw_pos (div_mod_bpg hp).2 hi']
    simp only [h3]
  writeValue := by
    intro s d cont b i v hd h hb hi _
    have h2 := h.get hb
    have hp := hd.bpg_pos
    have hl := hd.bpg_le
    have h3 := local_at (cont := cont) (b := b) hp
    have hi' : i < (localCont d.bpg cont (b / d.bpg) (b % d.bpg)).length := by rw [h3]; exact hi
    obtain ⟨y, hy1, hy2, _⟩ := ((h.grp _ h2.1).live hi').writeValue (c := c) (by omega) hd.vw_pos (div_mod_bpg hp).2 hi' v
    refine ⟨_, by simp only [grpOpsE, grpOps, h2.2, ok_bind, hy1, pure_eq_ok]; rfl, h.set hp hb (.inr ⟨?_, ?_⟩)⟩
    · simp only [h3] at hy2; exact hy2
    · have := flat_set (div_mod_bpg (b := b) hp).2 hi' ((cont b)[i].1, v % 2 ^ d.vw)
      rw [h3] at this
      rw [this, List.length_set]
      exact (h.grp _ h2.1).size.2
  eraseAt := by
    intro s d cont b i hd h hb hi
    have h2 := h.get hb
    have hp := hd.bpg_pos
    have hl := hd.bpg_le
    have h3 := local_at (cont := cont) (b := b) hp
    have h4 := (div_mod_bpg (b := b) hp).2
    have hi' : i < (localCont d.bpg cont (b / d.bpg) (b % d.bpg)).length := by rw [h3]; exact hi
    obtain ⟨y, hy1, hy2, _⟩ := ((h.grp _ h2.1).live hi').erase (c := e) hsp (by omega) hd.qw_pos hd.vw_pos h4 hi'
    rw [h3] at hy2
    have hlen := flat_erase h4 hi'
    rw [h3] at hlen
    refine ⟨_, by simp only [grpOpsE, grpOps, h2.2, ok_bind, Group.remove, hy1, pure_eq_ok]; rfl, h.set hp hb ?_⟩
    by_cases h0 : y.size = 0
    · rw [if_pos h0]
      refine .inl ⟨rfl, fun g => ?_⟩
      by_cases hg : g < d.bpg
      · have h5 := flat_le (cs := upd (localCont d.bpg cont (b / d.bpg)) (b % d.bpg) ((cont b).eraseIdx i))
          (show g + 1 ≤ d.bpg by omega)
        rw [flat_succ] at h5
        have := hy2.size
        exact List.eq_nil_of_length_eq_zero (by omega)
      · exact hy2.out g (by omega)
    · rw [if_neg h0]
      refine .inr ⟨hy2, ?_⟩
      rw [hlen]
      exact Nat.le_trans (List.length_eraseIdx_le _ _) (h.grp _ h2.1).size.2
  shrink := fun s d cont b _ h _ => ⟨s, rfl, h⟩
  len := by
    intro s d cont b hd h hb
    have h2 := h.get hb
    have hp := hd.bpg_pos
    have h4 := (div_mod_bpg (b := b) hp).2
    have h6 := flat_le (cs := localCont d.bpg cont (b / d.bpg)) (show b % d.bpg + 1 ≤ d.bpg by omega)
    rw [flat_succ, local_at hp] at h6
    have h7 := (h.grp _ h2.1).size.2
    have : NPOS = 18446744073709551615 := rfl
    omega

theorem lawful_grp (c : GrpCfg) (hsp : c.strict = true → sp = true) :
    LawfulStore (grpOps c) (fun w v => v % 2 ^ w) (GrpRep sp) 255 64 64 := lawful_grpE c c hsp

end SC
