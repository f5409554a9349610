import Verif.Overflow.Junk
import Verif.Debug
/-!
# `array_overflow` in a debug build
-/
namespace SC

/-- `m_length` of a `plain_bucket` in a debug build, bucket.hpp:195.  It is assigned wherever the array is allocated or freed
(bucket.hpp:226, 243, 255), so here it is computed from the array. -/
def PlainB.len : PlainB → Nat
  | none => 0
  | some cs => cs.length

/-- the assertions of `operator[]` of `array_overflow`, overflow.hpp:149-156, and of `plain_bucket`, bucket.hpp:231-238 -/
def ArrOv.checkVal (o : ArrOv) (p : Nat) : Res Unit := do
  ddcheck true (p < arrLength)
  ddcheck true (p < o.vals.len)

/-- the assertions of `key`, overflow.hpp:157-160, and of `operator[]` of `plain_bucket`, bucket.hpp:231-238 -/
def ArrOv.checkKey (o : ArrOv) (p : Nat) : Res Unit := do
  ddcheck true (p < arrLength)
  ddcheck true (p < o.keys.len)

/-- The overflow table `base` with the assertions of `array_overflow`.  The assertions of the tables that stand directly behind a
call of `insert` and before a call of `erase` are executed here as well.  The assertion of `next_position`, overflow.hpp:89, is left
out: `reserve` calls it with positions for which `valid_position` has just returned true, and there are at most 256 elements.
That of `previous_position` (overflow.hpp:93) is left out, too; only `operator--` calls it. -/
def arrDbg (c : ArrEnv) (base : OverflowOps ArrOv) : OverflowOps ArrOv :=
  { base with
    -- overflow.hpp:142-145
    needConsult := fun o b => do
      ddcheck true (b < o.nbits)
      base.needConsult o b
    -- overflow.hpp:130-136, bucket.hpp:231-234; sep:637-638, grp:1213-1214
    insert := fun o b k v => do
      ddcheck true (o.elems < arrLength)
      ddcheck true (o.elems < o.keys.len)
      ddcheck true (o.elems < o.vals.len)
      let r ← base.insert o b k v
      let q ← base.find r.1 k
      ddcheck true (q = r.2)
      let q ← base.find r.1 k
      r.1.checkVal q
      let x ← base.read r.1 q
      ddcheck true (x = v % 2 ^ c.vs)
      return r
    -- overflow.hpp:149-160
    read := fun o p => do
      o.checkVal p
      base.read o p
    write := fun o p v => do
      o.checkVal p
      base.write o p v
    key := fun o p => do
      o.checkKey p
      base.key o p
    -- overflow.hpp:115-122, sep:711, grp:1307
    erase := fun o p => do
      ddcheck true (p < arrLength)
      ddcheck true (p < o.elems)
      base.erase o p }

variable {c : ArrEnv} {junk : Nat → Nat} {o : ArrOv} {n : Nat} {l : List (Nat × Nat × Nat)} {full : Nat → Bool}

theorem IdealRep.klen (h : IdealRep o n l full) : o.keys.len = arrLength := by
  obtain ⟨r, h1, h2⟩ := h.keys
  rw [h1]
  simpa [PlainB.len] using h2

theorem IdealRep.vlen (h : IdealRep o n l full) : o.vals.len = arrLength := by
  obtain ⟨r, h1, h2⟩ := h.vals
  rw [h1]
  simpa [PlainB.len] using h2

theorem IdealRep.lt (h : IdealRep o n l full) {e : Nat × Nat × Nat} (he : e ∈ l) : e.1 < o.elems ∧ e.1 < arrLength := by
  have h1 : e.1 ∈ l.map Prod.fst := List.mem_map.mpr ⟨e, he, rfl⟩
  rw [h.pos, List.mem_range] at h1
  obtain ⟨r, _, h2⟩ := h.keys
  exact ⟨by rw [h.elems]; exact h1, by omega⟩

theorem IdealRep.checkVal (h : IdealRep o n l full) {e : Nat × Nat × Nat} (he : e ∈ l) : o.checkVal e.1 = .ok () := by
  unfold ArrOv.checkVal
  rw [ddcheck_ok (h.lt he).2, ok_bind, ddcheck_ok (by rw [h.vlen]; exact (h.lt he).2)]

theorem IdealRep.checkKey (h : IdealRep o n l full) {e : Nat × Nat × Nat} (he : e ∈ l) : o.checkKey e.1 = .ok () := by
  unfold ArrOv.checkKey
  rw [ddcheck_ok (h.lt he).2, ok_bind, ddcheck_ok (by rw [h.klen]; exact (h.lt he).2)]

theorem walk_arrDbg (c : ArrEnv) (base : OverflowOps ArrOv) (o : ArrOv) : ∀ (l : List (Nat × Nat × Nat)) (i : Nat),
    OvWalk base o i l → OvWalk (arrDbg c base) o i l := by
  intro l
  induction l with
  | nil => intro i h; exact h
  | cons e l ih => intro i h; exact ⟨h.1, h.2.1, ih _ h.2.2⟩

/-- with the assertions, the array that is used as it should be does the same, and no assertion fails -/
theorem lawful_ideal_dbg (c : ArrEnv) (junk : Nat → Nat) :
    LawfulOverflow (arrDbg c (arrIdeal c junk)) (fun v => v % 2 ^ c.vs) IdealRep where
  new := (lawful_ideal c junk).new
  resize := (lawful_ideal c junk).resize
  clear := (lawful_ideal c junk).clear
  pos := (lawful_ideal c junk).pos
  pos_nodup := (lawful_ideal c junk).pos_nodup
  size := (lawful_ideal c junk).size
  consult := by
    intro o n l full b h hb
    have := (lawful_ideal c junk).consult o n l full b h hb
    simp only [arrDbg, ddcheck_ok (Nat.lt_of_lt_of_le hb h.nbits), ok_bind, this]
  walk := fun o n l full h => walk_arrDbg c _ o l _ ((lawful_ideal c junk).walk o n l full h)
  find_in := (lawful_ideal c junk).find_in
  find_out := (lawful_ideal c junk).find_out
  read := by
    intro o n l full e h he
    have := (lawful_ideal c junk).read o n l full e h he
    simp only [arrDbg, h.checkVal he, ok_bind, this]
  key := by
    intro o n l full e h he
    have := (lawful_ideal c junk).key o n l full e h he
    simp only [arrDbg, h.checkKey he, ok_bind, this]
  insert := by
    intro o n l full b k v h hb hcap hk hv
    rcases (lawful_ideal c junk).insert o n l full b k v h hb hcap hk hv with ⟨o', full', h1, h2, h3⟩ | ⟨o', full', p, l', h1, h2, h3, h4, h5, h6⟩
    · exfalso
      have hb' : b < o.nbits := Nat.lt_of_lt_of_le hb h.nbits
      simp only [arrIdeal, if_pos hb'] at h1
      obtain ⟨_, _, h1⟩ := bind_eq_ok h1
      obtain ⟨_, _, h1⟩ := bind_eq_ok h1
      have hlt : o.elems < arrLength := hcap
      have e : o.elems = NPOS := by
        injection h1 with h1
        exact (Prod.mk.inj h1).2
      have : NPOS = 2 ^ 64 - 1 := rfl
      have : arrLength = 256 := rfl
      omega
    · refine .inr ⟨o', full', p, l', ?_, h2, h3, h4, h5, h6⟩
      have hlt : o.elems < arrLength := hcap
      have hm : (p, k, v % 2 ^ c.vs) ∈ l' := h3.mem_iff.mpr (by simp)
      have hf := (lawful_ideal c junk).find_in o' n l' full' _ h4 hm
      have hr := (lawful_ideal c junk).read o' n l' full' _ h4 hm
      have hc := h4.checkVal hm
      simp only at hf hr hc
      simp only [arrDbg, ddcheck_ok hlt, h.klen, h.vlen, ok_bind, h1, hf, ddcheck_ok, hc, hr, pure_eq_ok]
  write := by
    intro o n l full v l₁ l₂ p k x h hl hv
    obtain ⟨o', h1, h2⟩ := (lawful_ideal c junk).write o n l full v l₁ l₂ p k x h hl hv
    refine ⟨o', ?_, h2⟩
    have hcp := h.checkVal (e := (p, k, x)) (by rw [hl]; simp)
    simp only at hcp
    simp only [arrDbg, hcp, ok_bind, h1]
  erase := by
    intro o n l full l₁ l₂ e h hl
    obtain ⟨o', l', h1, h2⟩ := (lawful_ideal c junk).erase o n l full l₁ l₂ e h hl
    refine ⟨o', l', ?_, h2⟩
    have := h.lt (e := e) (by rw [hl]; simp)
    simp only [arrDbg, ddcheck_ok this.1, ddcheck_ok this.2, ok_bind, h1]

/-- the assertions preserve agreement -/
theorem OvAgree.dbg {a b : OverflowOps ArrOv} {K : Nat → Prop} {G : ArrOv → Prop} (A : OvAgree a b K G) (c : ArrEnv) :
    OvAgree (arrDbg c a) (arrDbg c b) K G where
  new := A.new
  resize := A.resize
  consult := by simp only [arrDbg, A.consult]
  size := A.size
  capacity := A.capacity
  first := A.first
  next := A.next
  valid := A.valid
  read := by simp only [arrDbg, A.read]
  write := by simp only [arrDbg, A.write]
  key := by simp only [arrDbg, A.key]
  find := A.find
  insert := by
    intro o x k v h hk
    simp only [arrDbg]
    refine (Same.triv _).bind fun _ _ _ => (Same.triv _).bind fun _ _ _ => (Same.triv _).bind fun _ _ _ =>
      (A.insert o x k v h hk).bind fun r hr _ => ?_
    rw [A.find _ _ hr.1 hk, A.read]
    refine (Same.triv _).bind fun _ _ _ => (Same.triv _).bind fun _ _ _ => (Same.triv _).bind fun _ _ _ => (Same.triv _).bind fun _ _ _ =>
      (Same.triv _).bind fun _ _ _ => (Same.triv _).bind fun _ _ _ => Same.ok hr
  gnew := A.gnew
  gresize := A.gresize
  gwrite := by
    intro o p v o' h hr
    simp only [arrDbg] at hr
    obtain ⟨_, _, hr⟩ := bind_eq_ok hr
    exact A.gwrite o p v o' h hr

end SC
