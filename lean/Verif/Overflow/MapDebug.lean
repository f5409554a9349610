import Verif.Overflow.Map
import Verif.Debug
/-!
# `map_overflow` in a debug build
-/
namespace SC

/-- `std::distance(m_map.begin(position), m_map.end(position))`: number of elements of a bucket -/
def MapOv.dist (c : MapEnv) (o : MapOv) (p : Nat) : Nat := o.items.countP (fun e => c.bkt o.count e.1 == p)

/-- the assertions of `operator[]` and `key`, overflow.hpp:270-271, 275-276, 280-281 -/
def MapOv.checkPos (c : MapEnv) (o : MapOv) (p : Nat) : Res Unit := do
  ddcheck true (p < o.count)
  ddcheck true (o.dist c p = 1)

/-- `find` in a debug build, overflow.hpp:262-268 -/
def MapOv.dbgFind (c : MapEnv) (o : MapOv) (k : Nat) : Res Nat := do
  ddcheck true (o.dist c (c.bkt o.count k) ≤ 1)
  (mapOverflow c).find o k

/-- `operator[]` in a debug build, read access, overflow.hpp:269-278 -/
def MapOv.dbgRead (c : MapEnv) (o : MapOv) (p : Nat) : Res Nat := do
  o.checkPos c p
  (mapOverflow c).read o p

/-- `key` in a debug build, overflow.hpp:279-283 -/
def MapOv.dbgKey (c : MapEnv) (o : MapOv) (p : Nat) : Res Nat := do
  o.checkPos c p
  (mapOverflow c).key o p

/-- The assertions after an insertion at position `p`: those of `insert`, overflow.hpp:247-249, and of the tables,
sep:637-638, grp:1213-1214. -/
def MapOv.checkInserted (c : MapEnv) (o : MapOv) (p k v : Nat) : Res Unit := do
  ddcheck true ((o.head c p).isSome = true)
  let k' ← o.dbgKey c p
  ddcheck true (k' = k)
  let v' ← o.dbgRead c p
  ddcheck true (v' = c.val v)
  let q ← o.dbgFind c k
  ddcheck true (q = p)
  let q ← o.dbgFind c k
  let v' ← o.dbgRead c q
  ddcheck true (v' = c.val v)

/-- `map_overflow` in a debug build.  The assertions of the tables that stand directly behind a call of `insert` and before
a call of `erase` are executed here as well.  The assertion of `next_position`, overflow.hpp:197, is left out: `reserve`
calls it with positions for which `valid_position` has just returned true, and this function makes the same test
(overflow.hpp:188).  That of `previous_position` (overflow.hpp:204) is left out, too; only `operator--` calls it. -/
def mapOverflowDbg (c : MapEnv) : OverflowOps MapOv :=
  { mapOverflow c with
    -- overflow.hpp:252-256
    resizeBuckets := fun o n => do
      let o ← (mapOverflow c).resizeBuckets o n
      ddcheck true (n ≤ o.count)
      return o
    -- overflow.hpp:258-261
    needConsult := fun o b => do
      ddcheck true (b < o.nbits)
      (mapOverflow c).needConsult o b
    insert := fun o b k v => do
      let (o, p) ← o.insert c b k v
      if p ≠ NPOS then o.checkInserted c p k v
      return (o, p)
    find := fun o k => o.dbgFind c k
    read := fun o p => o.dbgRead c p
    write := fun o p v => do
      o.checkPos c p
      (mapOverflow c).write o p v
    key := fun o p => o.dbgKey c p
    -- overflow.hpp:236-239, sep:711, grp:1307
    erase := fun o p => do
      ddcheck true (p < o.count)
      (mapOverflow c).erase o p }

/-- `reserve(m)` of a `std::unordered_map` with load factor 1 provides `m` buckets -/
def MapEnv.roomy (c : MapEnv) : Prop := ∀ n m, m ≤ 2 ^ 63 → m ≤ c.grow n m

variable {c : MapEnv} {o : MapOv} {n : Nat} {l : List (Nat × Nat × Nat)} {full : Nat → Bool}

theorem MapRep.dist (h : MapRep c o n l full) (p : Nat) : o.dist c p = l.countP (fun e => e.1 == p) := by
  unfold MapOv.dist
  rw [← h.perm.countP_eq, List.countP_map]
  refine List.countP_congr fun e he => ?_
  simp only [Function.comp_apply, h.pos e he]

theorem MapRep.dist_le (h : MapRep c o n l full) (p : Nat) : o.dist c p ≤ 1 := by
  rw [h.dist]
  have := h.sorted
  clear h
  induction l with
  | nil => simp
  | cons a l ih =>
    rw [List.pairwise_cons] at this
    rw [List.countP_cons]
    by_cases hp : (a.1 == p) = true
    · have h0 : l.countP (fun e => e.1 == p) = 0 := by
        rw [List.countP_eq_zero]
        intro e he
        have := this.1 e he
        simp at hp
        simp
        omega
      rw [h0, if_pos hp]; omega
    · rw [if_neg hp]; exact ih this.2

theorem MapRep.dist_in (h : MapRep c o n l full) {e : Nat × Nat × Nat} (he : e ∈ l) : o.dist c e.1 = 1 := by
  have h1 := h.dist_le e.1
  have h2 : 0 < o.dist c e.1 := by rw [h.dist, List.countP_pos_iff]; exact ⟨e, he, by simp⟩
  omega

theorem MapRep.checkPos (h : MapRep c o n l full) (hc : c.good) {e : Nat × Nat × Nat} (he : e ∈ l) : o.checkPos c e.1 = .ok () := by
  unfold MapOv.checkPos
  rw [ddcheck_ok (h.lt hc he), ok_bind, ddcheck_ok (h.dist_in he)]

theorem MapRep.dbgFind (h : MapRep c o n l full) (k : Nat) : o.dbgFind c k = (mapOverflow c).find o k := by
  unfold MapOv.dbgFind
  rw [ddcheck_ok (h.dist_le _), ok_bind]

theorem MapRep.dbgRead (h : MapRep c o n l full) (hc : c.good) {e : Nat × Nat × Nat} (he : e ∈ l) : o.dbgRead c e.1 = .ok e.2.2 := by
  unfold MapOv.dbgRead
  rw [h.checkPos hc he, ok_bind, (lawful_map c hc).read _ _ _ _ _ h he]

theorem MapRep.dbgKey (h : MapRep c o n l full) (hc : c.good) {e : Nat × Nat × Nat} (he : e ∈ l) : o.dbgKey c e.1 = .ok e.2.1 := by
  unfold MapOv.dbgKey
  rw [h.checkPos hc he, ok_bind, (lawful_map c hc).key _ _ _ _ _ h he]

theorem MapRep.checkInserted (h : MapRep c o n l full) (hc : c.good) {p k v : Nat} (he : (p, k, c.val v) ∈ l) :
    o.checkInserted c p k v = .ok () := by
  have h1 := h.head_in he
  have h2 := h.dbgKey hc he
  have h3 := h.dbgRead hc he
  have h4 := h.dbgFind k
  rw [(lawful_map c hc).find_in _ _ _ _ _ h he] at h4
  simp only at h1 h2 h3 h4
  unfold MapOv.checkInserted
  rw [ddcheck_ok (show (o.head c p).isSome = true by rw [h1]; rfl)]
  simp only [ok_bind, h2, h3, h4, ddcheck_ok]

theorem walk_dbg (c : MapEnv) (o : MapOv) : ∀ (l : List (Nat × Nat × Nat)) (i : Nat),
    OvWalk (mapOverflow c) o i l → OvWalk (mapOverflowDbg c) o i l := by
  intro l
  induction l with
  | nil => intro i h; exact h
  | cons e l ih => intro i h; exact ⟨h.1, h.2.1, ih _ h.2.2⟩

/-- In a debug build `map_overflow` does the same, and no assertion fails. -/
theorem lawful_map_dbg (c : MapEnv) (hc : c.good) (hr : c.roomy) : LawfulOverflow (mapOverflowDbg c) c.val (MapRep c) where
  new := (lawful_map c hc).new
  resize := by
    intro o n m full h hm
    obtain ⟨o', full', h1, h2⟩ := (lawful_map c hc).resize o n m full h hm
    refine ⟨o', full', ?_, h2⟩
    have hle : m ≤ o'.count := by
      cases h1
      exact hr _ _ hm
    simp only [mapOverflowDbg, h1, ok_bind, ddcheck_ok hle, pure_eq_ok]
  clear := (lawful_map c hc).clear
  pos := (lawful_map c hc).pos
  pos_nodup := (lawful_map c hc).pos_nodup
  size := (lawful_map c hc).size
  consult := by
    intro o n l full b h hb
    have := (lawful_map c hc).consult o n l full b h hb
    simp only [mapOverflowDbg, ddcheck_ok (Nat.lt_of_lt_of_le hb h.len), ok_bind, this]
  walk := fun o n l full h => walk_dbg c o l _ ((lawful_map c hc).walk o n l full h)
  find_in := by
    intro o n l full e h he
    show o.dbgFind c e.2.1 = _
    rw [h.dbgFind]; exact (lawful_map c hc).find_in o n l full e h he
  find_out := by
    intro o n l full k h hk
    show o.dbgFind c k = _
    rw [h.dbgFind]; exact (lawful_map c hc).find_out o n l full k h hk
  read := fun o n l full e h he => h.dbgRead hc he
  key := fun o n l full e h he => h.dbgKey hc he
  insert := by
    intro o n l full b k v h hb hcap hk hv
    rcases (lawful_map c hc).insert o n l full b k v h hb hcap hk hv with ⟨o', full', h1, h2, h3⟩ | ⟨o', full', p, l', h1, h2, h3, h4, h5, h6⟩
    · refine .inl ⟨o', full', ?_, h2, h3⟩
      have h1' : o.insert c b k v = .ok (o', NPOS) := h1
      simp only [mapOverflowDbg, h1', ok_bind, ne_eq, not_true_eq_false, if_false, pure_eq_ok]
    · refine .inr ⟨o', full', p, l', ?_, h2, h3, h4, h5, h6⟩
      have h1' : o.insert c b k v = .ok (o', p) := h1
      have hci := h4.checkInserted hc (p := p) (k := k) (v := v) (h3.mem_iff.mpr (by simp))
      simp only [mapOverflowDbg, h1', ok_bind, ne_eq, h2, not_false_eq_true, if_true, hci, pure_eq_ok]
  write := by
    intro o n l full v l₁ l₂ p k x h hl hv
    obtain ⟨o', h1, h2⟩ := (lawful_map c hc).write o n l full v l₁ l₂ p k x h hl hv
    refine ⟨o', ?_, h2⟩
    have hcp := h.checkPos hc (e := (p, k, x)) (by rw [hl]; simp)
    simp only at hcp
    simp only [mapOverflowDbg, hcp, ok_bind, h1]
  erase := by
    intro o n l full l₁ l₂ e h hl
    obtain ⟨o', l', h1, h2⟩ := (lawful_map c hc).erase o n l full l₁ l₂ e h hl
    refine ⟨o', l', ?_, h2⟩
    have := h.lt hc (a := e) (by rw [hl]; simp)
    simp only [mapOverflowDbg, ddcheck_ok this, ok_bind, h1]

/-- the same for values that fit -/
theorem LawfulOverflow.fit {O : Type} {ov : OverflowOps O} {norm norm' : Nat → Nat}
    {Rep : O → Nat → List (Nat × Nat × Nat) → (Nat → Bool) → Prop} {ok : Nat → Prop} (h : LawfulOverflow ov norm Rep)
    (hok : ∀ v, ok v → norm v = norm' v) : LawfulOverflow ov norm' Rep ok :=
  { h with
    insert := fun o n l full b k v h1 h2 h3 h4 h5 => hok v h5 ▸ h.insert o n l full b k v h1 h2 h3 h4 trivial
    write := fun o n l full v l₁ l₂ p k x h1 h2 h5 => hok v h5 ▸ h.write o n l full v l₁ l₂ p k x h1 h2 trivial }

end SC
