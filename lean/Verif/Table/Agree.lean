import Verif.Table.Erase
/-!
# Tables that differ in the overflow table only

Used where an overflow table meets its specification for some keys and some functions only: as long as nothing else is
used, the table does the same as a table with an overflow table that meets its specification.
-/
namespace SC
variable {S O : Type}

/-- `x` does the same as `y`, and what `y` gives has the property `Q` -/
def Same {α : Type} (Q : α → Prop) (x y : Res α) : Prop := x = y ∧ ∀ r, y = .ok r → Q r

theorem Same.bind {α β : Type} {Q : α → Prop} {R : β → Prop} {x y : Res α} {f h : α → Res β} (hx : Same Q x y)
    (hf : ∀ a, Q a → y = .ok a → Same R (f a) (h a)) : Same R (x >>= f) (y >>= h) := by
  obtain ⟨rfl, h2⟩ := hx
  cases x with
  | error e => exact ⟨rfl, fun r hr => by cases hr⟩
  | ok a => exact hf a (h2 a rfl) rfl

theorem Same.refl {α : Type} {Q : α → Prop} {x : Res α} (h : ∀ r, x = .ok r → Q r) : Same Q x x := ⟨rfl, h⟩

theorem Same.triv {α : Type} (x : Res α) : Same (fun _ => True) x x := ⟨rfl, fun _ _ => trivial⟩

theorem Same.ok {α : Type} {Q : α → Prop} {a : α} (h : Q a) : Same Q (.ok a) (.ok a) :=
  ⟨rfl, fun r hr => by cases hr; exact h⟩

theorem Same.mono {α : Type} {Q R : α → Prop} {x y : Res α} (h : Same Q x y) (hi : ∀ a, Q a → R a) : Same R x y :=
  ⟨h.1, fun r hr => hi r (h.2 r hr)⟩

/-- `a` does the same as `b` on overflow tables with `G` for keys with `K`, apart from `erase` and `clear` -/
structure OvAgree (a b : OverflowOps O) (K : Nat → Prop) (G : O → Prop) : Prop where
  new : a.new = b.new
  resize : a.resizeBuckets = b.resizeBuckets
  consult : a.needConsult = b.needConsult
  size : a.size = b.size
  capacity : a.capacity = b.capacity
  first : a.firstPosition = b.firstPosition
  next : a.nextPosition = b.nextPosition
  valid : a.validPosition = b.validPosition
  read : a.read = b.read
  write : a.write = b.write
  key : a.key = b.key
  find : ∀ o k, G o → K k → a.find o k = b.find o k
  insert : ∀ o x k v, G o → K k → Same (fun r => G r.1 ∧ r.2 ≠ NPOS) (a.insert o x k v) (b.insert o x k v)
  gnew : ∀ kw vw, G (b.new kw vw)
  gresize : ∀ o n o', G o → b.resizeBuckets o n = .ok o' → G o'
  gwrite : ∀ o p v o', G o → b.write o p v = .ok o' → G o'

/-- replace the overflow table -/
def Cfg.withOv (g : Cfg S O) (a : OverflowOps O) : Cfg S O := { g with ov := a }

variable {g : Cfg S O} {a : OverflowOps O} {K : Nat → Prop} {G : O → Prop} {P : Par S O}

theorem new_withOv (A : OvAgree a g.ov K G) (kw vw : Nat) : Tab.new (g.withOv a) kw vw = Tab.new g kw vw := by
  unfold Tab.new Cfg.withOv
  simp only [A.new]

theorem reserveEmpty_withOv (A : OvAgree a g.ov K G) (t : Tab S O) (n : Nat) (ht : G t.ovf) :
    Same (fun t' => G t'.ovf) (t.reserveEmpty (g.withOv a) n) (t.reserveEmpty g n) := by
  unfold Tab.reserveEmpty
  refine (Same.triv _).bind fun bits _ _ => (Same.triv _).bind fun _ _ _ => (Same.triv _).bind fun s _ _ => ?_
  simp only [Cfg.withOv, A.resize]
  refine (Same.refl (Q := G) fun o' h => A.gresize _ _ _ ht h).bind fun o ho _ => ?_
  exact Same.ok ho

theorem moveOverflow_withOv (A : OvAgree a g.ov K G) (ins : Tab S O → Nat → Nat → Res (Tab S O × Nav)) (t : Tab S O) :
    ∀ n i tmp, Tab.moveOverflow (g.withOv a) ins t n i tmp = Tab.moveOverflow g ins t n i tmp := by
  intro n
  induction n with
  | zero => intro i tmp; rfl
  | succ n ih =>
    intro i tmp
    simp only [Tab.moveOverflow, ih]
    simp only [Cfg.withOv, A.valid, A.key, A.read, A.next]

/-- what is known about the two insertion functions -/
structure InsAgree (g : Cfg S O) (P : Par S O) (K : Nat → Prop) (G : O → Prop) (f : Nat)
    (ins' ins : Tab S O → Nat → Nat → Res (Tab S O × Nav)) : Prop where
  ok : ∀ t l k v, Inv g P t l → k < 2 ^ P.kw → P.normO v = P.norm P.vw v → FuelOK P f t →
      ∃ t' n, ins t k v = .ok (t', n) ∧ InsRes g P t l k v t' n ∧ t.tb ≤ t'.tb ∧
        t'.tb ≤ max (max t.tb P.ini) P.grow
  same : ∀ t l k v, Inv g P t l → (∀ e ∈ l, K e.1) → k < 2 ^ P.kw → K k → P.normO v = P.norm P.vw v → FuelOK P f t → G t.ovf →
      Same (fun r => G r.1.ovf) (ins' t k v) (ins t k v)

theorem insAll_agree (L : Laws g P) {f : Nat} {ins' ins : Tab S O → Nat → Nat → Res (Tab S O × Nav)}
    (I : InsAgree g P K G f ins' ins) :
    ∀ (xs : List (Nat × Nat)) (t : Tab S O) (l : List (Nat × Nat)), Inv g P t l → FuelOK P f t →
    (∀ e ∈ xs, e.1 < 2 ^ P.kw ∧ P.norm P.vw e.2 = e.2) → ((l ++ xs).map Prod.fst).Nodup →
    (∀ e ∈ l ++ xs, K e.1) → G t.ovf →
    Same (fun t => G t.ovf) (xs.foldlM (insStep ins') t) (xs.foldlM (insStep ins) t) := by
  intro xs
  induction xs with
  | nil => intro t l _ _ _ _ _ hG; exact Same.ok hG
  | cons e xs ihx =>
    intro t l h hf hx hnd hK hG
    obtain ⟨hk, hv⟩ := hx e (by simp)
    have hvo : P.normO e.2 = P.norm P.vw e.2 := by
      have := L.normO_norm e.2
      rw [hv] at this
      rw [this, hv]
    have hnm : e.1 ∉ l.map Prod.fst := by
      rw [List.map_append, List.map_cons] at hnd
      intro hmem
      have h3 := (List.nodup_append.mp hnd).2.2
      exact h3 _ hmem _ (by simp) rfl
    obtain ⟨t1, n, h1, h2, h3, h4⟩ := I.ok t l e.1 e.2 h hk hvo hf
    have hs := I.same t l e.1 e.2 h (fun x hx => hK x (by simp [hx])) hk (hK e (by simp)) hvo hf hG
    have hinv := h2.inv hnm
    rw [hv] at hinv
    have hp : ((e :: l) ++ xs).Perm (l ++ e :: xs) := by
      rw [List.cons_append]; exact List.perm_middle.symm
    have hf1 : FuelOK P f t1 := by
      rcases hf with hf | ⟨h5, h6⟩
      · exact .inl hf
      · exact .inr ⟨by omega, by omega⟩
    have := ihx t1 (e :: l) hinv hf1 (fun x hx' => hx x (by simp [hx'])) ((hp.map Prod.fst).nodup_iff.mpr hnd)
      (fun x hx => hK x (hp.mem_iff.mp hx)) (hs.2 _ h1)
    rw [List.foldlM_cons, List.foldlM_cons]
    have e1 : insStep ins t e = .ok t1 := by simp only [insStep, h1, ok_bind, pure_eq_ok]
    have e2 : insStep ins' t e = .ok t1 := by simp only [insStep, hs.1, h1, ok_bind, pure_eq_ok]
    rw [e1, e2]
    exact this

theorem reserveWith_same' (A : OvAgree a g.ov K G) (L : Laws g P) {f : Nat}
    {ins' ins : Tab S O → Nat → Nat → Res (Tab S O × Nav)} (I : InsAgree g P K G f ins' ins)
    {t : Tab S O} {c : Cont} {o : List (Nat × Nat × Nat)} {full : Nat → Bool} (h : Live g P t c o full)
    (hK : ∀ e ∈ ents (g.hash P.kw) t.tb c o, K e.1) {n r : Nat} (hr : reserveBits n = .ok r) {t1 : Tab S O}
    (h1 : Tab.reserveEmpty g { Tab.new g P.kw P.vw with bpg := g.rehashBpg } (2 ^ r) = .ok t1) (hinv1 : Inv g P t1 [])
    (hf : FuelOK P f t1) :
    Same (fun t' => G t'.ovf) (t.reserveWith (g.withOv a) ins' n 0) (t.reserveWith g ins n 0) := by
  have htb := h.tb_pos L
  have h1s := reserveEmpty_withOv A { Tab.new g P.kw P.vw with bpg := g.rehashBpg } (2 ^ r) (A.gnew _ _)
  have hinv : Inv g P t (ents (g.hash P.kw) t.tb c o) := .inr ⟨c, o, full, h, List.Perm.refl _⟩
  have key := insAll_agree L I (ents (g.hash P.kw) t.tb c o) t1 [] hinv1 hf
    (fun e he => ⟨hinv.key_lt L he, hinv.val_norm he⟩) (by simpa using ents_nodup (h.map_ok L) h.cok)
    (by simpa using hK) (h1s.2 _ h1)
  rw [← h.rehash L ins' t1, ← h.rehash L ins t1] at key
  unfold Tab.reserveWith
  have h0 : ¬ t.tb = 0 := by omega
  rw [hr, ok_bind, ok_bind, if_neg h0, if_neg h0]
  have e : (if (0 : Nat) = 0 then t.kw else 0) = P.kw := by rw [if_pos rfl]; exact h.tkw
  have e1 : Tab.reserveEmpty (g.withOv a) { Tab.new (g.withOv a) P.kw P.vw with bpg := (g.withOv a).rehashBpg } (2 ^ r) = .ok t1 := by
    rw [new_withOv A]
    exact h1s.1.trans h1
  rw [e, h.tvw]
  have e4 : t.checkTally (g.withOv a) = .ok () := by
    have : t.checkTally (g.withOv a) = t.checkTally g := by
      unfold Tab.checkTally
      rw [show (g.withOv a).ov.size = g.ov.size from A.size]
      rfl
    rw [this]; exact h.checkTally L
  simp only [e1, h1, e4, h.checkTally L, ok_bind]
  simp only [moveOverflow_withOv A]
  have e2 : (g.withOv a).ov.size t.ovf = g.ov.size t.ovf := by simp only [Cfg.withOv, A.size]
  have e3 : (g.withOv a).ov.firstPosition t.ovf = g.ov.firstPosition t.ovf := by simp only [Cfg.withOv, A.first]
  rw [e2, e3]
  have assoc : ∀ (x : Res (Tab S O)) (y : Tab S O → Res (Tab S O)) (z : Tab S O → Res (Tab S O)),
      (x >>= fun tmp => y tmp >>= z) = ((x >>= y) >>= z) := fun x y z => by cases x <;> rfl
  have := key.bind (R := fun t' : Tab S O => G t'.ovf) (f := fun tmp => do ddcheck g.debug (t.elems = tmp.elems); return tmp)
    (h := fun tmp => do ddcheck g.debug (t.elems = tmp.elems); return tmp)
    (fun tmp ht _ => (Same.triv (ddcheck g.debug (t.elems = tmp.elems))).bind fun _ _ _ => Same.ok (Q := fun t' : Tab S O => G t'.ovf) ht)
  rw [← assoc, ← assoc] at this
  exact this

theorem reserveWith_same (A : OvAgree a g.ov K G) (L : Laws g P) {f : Nat}
    {ins' ins : Tab S O → Nat → Nat → Res (Tab S O × Nav)} (I : InsAgree g P K G f ins' ins)
    {t : Tab S O} {c : Cont} {o : List (Nat × Nat × Nat)} {full : Nat → Bool} (h : Live g P t c o full)
    (hK : ∀ e ∈ ents (g.hash P.kw) t.tb c o, K e.1) {n r : Nat} (hr : reserveBits n = .ok r) (hlo : P.lo ≤ r)
    (hhi : r ≤ P.hi) (hf : P.grow - r < f) :
    Same (fun t' => G t'.ovf) (t.reserveWith (g.withOv a) ins' n 0) (t.reserveWith g ins n 0) := by
  have hrlt : r < 64 := Nat.lt_of_le_of_lt hhi L.hi_lt
  obtain ⟨full0, ho0⟩ := L.ovf.new P.kw P.vw
  obtain ⟨t1, full1, h1, h2, h3, _⟩ := reserveEmpty_ok L
    (t := { Tab.new g P.kw P.vw with bpg := g.rehashBpg }) (n := 2 ^ r) (r := r) rfl rfl L.rbpg_pos L.rbpg_le rfl
    ho0 L.fresh (reserveBits_pow hrlt) hlo hhi
  exact reserveWith_same' A L I h hK hr h1 (.inr ⟨_, _, _, h2, by rw [ents_nil]⟩)
    (.inr ⟨by have := L.lo_pos; omega, by rw [h3]; exact hf⟩)

theorem ins_agree (A : OvAgree a g.ov K G) (L : Laws g P) : ∀ (f : Nat) (t : Tab S O) (l : List (Nat × Nat)) (k v : Nat),
    Inv g P t l → (∀ e ∈ l, K e.1) → k < 2 ^ P.kw → K k → P.normO v = P.norm P.vw v → FuelOK P f t → G t.ovf →
    Same (fun r => G r.1.ovf) (Tab.findOrInsert (g.withOv a) f t k v) (Tab.findOrInsert g f t k v) := by
  intro f
  induction f with
  | zero => intro t l k v _ _ _ _ _ hf; rcases hf with hf | ⟨_, hf⟩ <;> omega
  | succ f ih =>
    intro t l k v h hKl hk hKk hv hf hG
    obtain ⟨t1, c, o, full, ht1, hl, hp, hf1⟩ : ∃ t1 c o full,
        (if t.tb = 0 then t.reserveEmpty g (min (t.kw - 1) g.initBuckets) else .ok t : Res (Tab S O)) = .ok t1 ∧
        Live g P t1 c o full ∧ l.Perm (ents (g.hash P.kw) t1.tb c o) ∧ P.grow - t1.tb < f + 1 := by
      rcases h with ⟨h1, h2, h3, h4, h5, h6, rfl, hst, n, full, h7⟩ | ⟨c, o, full, hl, hp⟩
      · obtain ⟨hi1, hi2, hi3⟩ := L.init
        rw [← h1] at hi1
        obtain ⟨t1, full1, g1, g2, g3, _⟩ := reserveEmpty_ok L h1 h2 h3 h4 h6 h7 hst hi1 hi2 hi3
        refine ⟨t1, _, _, full1, by rw [if_pos h5]; exact g1, g2, by rw [ents_nil], ?_⟩
        rcases hf with hf | ⟨hf, _⟩ <;> omega
      · have := hl.tb_pos L
        refine ⟨t, c, o, full, by rw [if_neg (by omega)], hl, hp, ?_⟩
        rcases hf with hf | ⟨_, hf⟩ <;> omega
    have hstart : Same (fun t' => G t'.ovf)
        (if t.tb = 0 then t.reserveEmpty (g.withOv a) (min (t.kw - 1) (g.withOv a).initBuckets) else .ok t : Res (Tab S O))
        (if t.tb = 0 then t.reserveEmpty g (min (t.kw - 1) g.initBuckets) else .ok t : Res (Tab S O)) := by
      split
      · exact reserveEmpty_withOv A t _ hG
      · exact Same.ok hG
    have hG1 : G t1.ovf := hstart.2 _ ht1
    have e0 := hstart.1.trans ht1
    obtain ⟨q, b, hm, hb⟩ := hl.mapk L hk
    simp only [Tab.findOrInsert]
    refine (Same.triv _).bind fun _ _ _ => ?_
    rw [e0, ht1, ok_bind, ok_bind]
    have hbind : ∀ {β : Type} {R : β → Prop} {x : Res (Nat × Nat)} {y z : Nat × Nat → Res β}, x = .ok (q, b) →
        Same R (y (q, b)) (z (q, b)) → Same R (x >>= y) (x >>= z) := by
      intro β R x y z hx hh
      rw [hx]; exact hh
    refine hbind (x := (t1.hash g).map k t1.tb) (by rw [hl.hash]; exact hm) ?_
    refine (Same.triv (t1.checkMap g k q b)).bind fun _ _ _ => ?_
    obtain ⟨pos, hpos, hcase⟩ := hl.locate L hk hm
    refine (Same.triv (g.ops.locate t1.store (t1.dim g) b q)).bind fun pos' _ hpos' => ?_
    rw [hpos] at hpos'
    cases hpos'
    rcases hcase with ⟨rfl, hq'⟩ | ⟨hne, x, hloc⟩
    rotate_left
    · rw [if_pos hne, if_pos hne]
      exact Same.ok (Q := fun r : Tab S O × Nav => G r.1.ovf) hG1
    have hnn : ¬ (NPOS ≠ NPOS) := fun h => h rfl
    rw [if_neg hnn, if_neg hnn]
    have ec : (g.withOv a).ov.needConsult = g.ov.needConsult := A.consult
    rw [ec]
    refine (Same.triv _).bind fun consult _ _ => ?_
    refine Same.bind (Q := fun _ => True) (y := (if consult = true then g.ov.find t1.ovf k else .ok NPOS : Res Nat)) ?_
      fun opos _ _ => ?_
    · split
      · have e : (g.withOv a).ov.find t1.ovf k = g.ov.find t1.ovf k := A.find _ _ hG1 hKk
        rw [e]; exact Same.triv _
      · exact Same.triv _
    by_cases hop : opos ≠ NPOS
    · rw [if_pos hop, if_pos hop]
      exact Same.ok (Q := fun r : Tab S O × Nav => G r.1.ovf) hG1
    rw [if_neg hop, if_neg hop]
    refine (Same.triv (g.ops.full t1.store (t1.dim g) b)).bind fun r _ hr => ?_
    cases r with
    | false =>
      simp only [Bool.false_eq_true, if_false]
      refine (Same.triv (g.ops.size t1.store (t1.dim g) b)).bind fun n _ _ => ?_
      refine (Same.triv (g.ops.push t1.store (t1.dim g) b q v)).bind fun s _ _ => ?_
      exact Same.ok (Q := fun r : Tab S O × Nav => G r.1.ovf) hG1
    | true =>
      simp only [if_true]
      refine Same.bind (Q := fun r => (G r.1 ∧ r.2 ≠ NPOS) ∨ r = (t1.ovf, NPOS))
        (y := (if g.ov.size t1.ovf < g.ov.capacity t1.ovf then g.ov.insert t1.ovf b k v
          else .ok (t1.ovf, NPOS) : Res (O × Nat))) ?_ fun r hr1 hr2 => ?_
      · have e1 : (g.withOv a).ov.size = g.ov.size := A.size
        have e2 : (g.withOv a).ov.capacity = g.ov.capacity := A.capacity
        rw [e1, e2]
        split
        · exact (A.insert t1.ovf b k v hG1 hKk).mono fun _ h => .inl h
        · exact Same.ok (.inr rfl)
      by_cases hp1 : r.2 ≠ NPOS
      · rw [if_pos hp1, if_pos hp1]
        refine Same.ok (Q := fun r : Tab S O × Nav => G r.1.ovf) ?_
        rcases hr1 with h | rfl
        · exact h.1
        · exact absurd rfl hp1
      rw [if_neg hp1, if_neg hp1]
      obtain rfl : r = (t1.ovf, NPOS) := by
        rcases hr1 with h | h
        · exact absurd h.2 hp1
        · exact h
      have hgrow : t1.tb < P.grow := by
        rcases Nat.lt_or_ge t1.tb P.grow with h | h
        · exact h
        · rw [hl.not_full L h hk hm hq'] at hr; exact absurd hr (by simp)
      have hlt : t1.tb + 1 < 64 := by have := L.grow_le; have := L.hi_lt; omega
      have hsh : shl64 1 (t1.tb + 1) = .ok (2 ^ (t1.tb + 1)) := by
        unfold shl64
        rw [if_pos hlt, Nat.shiftLeft_eq, Nat.one_mul]
        exact congrArg _ (Nat.mod_eq_of_lt (Nat.pow_lt_pow_right (by omega) hlt))
      rw [hsh, ok_bind, ok_bind]
      have hinv' : Inv g P t1 l := .inr ⟨c, o, full, hl, hp⟩
      have hlo2 : P.lo ≤ t1.tb + 1 := by have := hl.lo; omega
      have hhi2 : t1.tb + 1 ≤ P.hi := by have := L.grow_le; omega
      have hs := reserveWith_same A L (f := f) ⟨ins_ok L f, ih⟩ hl (fun e he => hKl e (hp.mem_iff.mpr he))
        (n := 2 ^ (t1.tb + 1)) (reserveBits_pow hlt) hlo2 hhi2 (by omega)
      obtain ⟨t2, g1, g2, g3, g4⟩ := reserveWith_ok L L (Tab.findOrInsert g f) (ins_ok L f) hl (n := 2 ^ (t1.tb + 1))
        (r := t1.tb + 1) (nkw := 0) (reserveBits_pow hlt) hlo2 hhi2 (by simp) rfl (by omega)
        (fun e he => ⟨hinv'.key_lt L (hp.mem_iff.mpr he), hinv'.val_norm (hp.mem_iff.mpr he)⟩)
      refine Same.bind (Q := fun t' : Tab S O => G t'.ovf) hs fun t3 hG3 h3 => ?_
      have h3' : t1.reserveWith g (Tab.findOrInsert g f) (2 ^ (t1.tb + 1)) 0 = .ok t3 := h3
      rw [g1] at h3'
      cases h3'
      exact ih t2 l k v (g2.perm hp) hKl hk hKk hv (.inr ⟨by omega, by omega⟩) hG3

theorem insert_same (A : OvAgree a g.ov K G) (L : Laws g P) (hg : P.grow < 65) {t : Tab S O} {l : List (Nat × Nat)} (h : Inv g P t l)
    (hK : ∀ e ∈ l, K e.1) {k v : Nat} (hk : k < 2 ^ P.kw) (hKk : K k) (hv : P.normO v = P.norm P.vw v) (hG : G t.ovf) :
    Same (fun r => G r.1.ovf) (t.insert (g.withOv a) k v) (t.insert g k v) :=
  ins_agree A L depth t l k v h hK hk hKk hv (.inl hg) hG

/-! ## Calls -/

/-- calls that only mention keys with `K`, and neither `erase` nor `clear` -/
def MapOp.tame (K : Nat → Prop) : MapOp → Prop
  | .insert k _ => K k
  | .get k => K k
  | .assign k _ => K k
  | .find k => K k
  | .count k => K k
  | .erase _ => False
  | .clear => False
  | _ => True

theorem keyAt_withOv (A : OvAgree a g.ov K G) (t : Tab S O) (n : Nav) : t.keyAt (g.withOv a) n = t.keyAt g n := by
  unfold Tab.keyAt Tab.checkValid Tab.invalid
  simp only [Cfg.withOv, A.size, A.valid, A.key]
  rfl

theorem valueAt_withOv (A : OvAgree a g.ov K G) (t : Tab S O) (n : Nav) : t.valueAt (g.withOv a) n = t.valueAt g n := by
  unfold Tab.valueAt Tab.checkValid Tab.invalid
  simp only [Cfg.withOv, A.size, A.valid, A.read]
  rfl

theorem navEq_withOv (A : OvAgree a g.ov K G) (t : Tab S O) (x y : Nav) : t.navEq (g.withOv a) x y = t.navEq g x y := by
  unfold Tab.navEq Tab.invalid
  simp only [Cfg.withOv, A.size, A.valid]
  rfl

theorem find_withOv (A : OvAgree a g.ov K G) (t : Tab S O) (hG : G t.ovf) {k : Nat} (hk : K k) :
    t.find (g.withOv a) k = t.find g k := by
  unfold Tab.find
  have e : (g.withOv a).ov.find t.ovf k = g.ov.find t.ovf k := A.find _ _ hG hk
  have e2 : (g.withOv a).ov.size = g.ov.size := A.size
  rw [e, e2]
  rfl

theorem writeValue_withOv (A : OvAgree a g.ov K G) (t : Tab S O) (hG : G t.ovf) (n : Nav) (v : Nat) :
    Same (fun t' => G t'.ovf) (t.writeValue (g.withOv a) n v) (t.writeValue g n v) := by
  unfold Tab.writeValue
  split
  · have e : (g.withOv a).ov.write = g.ov.write := A.write
    rw [e]
    refine (Same.refl (Q := G) fun o' h => A.gwrite _ _ _ _ hG h).bind fun o ho _ => ?_
    exact Same.ok (Q := fun t' : Tab S O => G t'.ovf) ho
  · refine (Same.triv _).bind fun _ _ _ => (Same.triv _).bind fun s _ _ => ?_
    exact Same.ok (Q := fun t' : Tab S O => G t'.ovf) hG

theorem shrink_withOv (t : Tab S O) (hG : G t.ovf) : Same (fun t' => G t'.ovf) (t.shrink (g.withOv a)) (t.shrink g) := by
  unfold Tab.shrink
  split
  · exact Same.ok (Q := fun t' : Tab S O => G t'.ovf) hG
  · refine Same.refl fun r hr => ?_
    have : ∀ (xs : List Nat) (t r : Tab S O), G t.ovf → xs.foldlM (fun t b => do
        let s ← g.ops.shrink t.store (t.dim g) b
        return { t with store := s }) t = .ok r → G r.ovf := by
      intro xs
      induction xs with
      | nil => intro t r h hr; cases hr; exact h
      | cons x xs ih =>
        intro t r h hr
        rw [List.foldlM_cons] at hr
        obtain ⟨t1, h1, h2⟩ := bind_eq_ok hr
        obtain ⟨s, h3, h4⟩ := bind_eq_ok h1
        cases h4
        exact ih _ _ (by exact h) h2
    exact this _ _ _ hG hr

theorem reserve_same (A : OvAgree a g.ov K G) (L : Laws g P) (hg : P.grow < 65) {t : Tab S O} {l : List (Nat × Nat)} (h : Inv g P t l)
    (hK : ∀ e ∈ l, K e.1) (hG : G t.ovf) {n r : Nat} (hr : reserveBits n = .ok r) (h0 : r = 0 ∧ P.one = true ∨ P.lo ≤ r)
    (hhi : r ≤ P.hi) : Same (fun t' => G t'.ovf) (t.reserve (g.withOv a) n) (t.reserve g n) := by
  rcases h with ⟨h1, h2, h3, h4, h5, h6, rfl, hst, m, full, h7⟩ | ⟨c, o, full, hl, hp⟩
  · unfold Tab.reserve Tab.reserveWith
    rw [hr, ok_bind, ok_bind, if_pos h5, if_pos h5]
    exact reserveEmpty_withOv A t n hG
  · have hI : InsAgree g P K G depth (Tab.findOrInsert (g.withOv a) depth) (Tab.findOrInsert g depth) :=
      ⟨ins_ok L depth, ins_agree A L depth⟩
    rcases h0 with ⟨rfl, hone⟩ | hlo
    · have never := L.never hone
      obtain ⟨full0, ho0⟩ := L.ovf.new P.kw P.vw
      obtain ⟨s, hs1, hs2⟩ := L.store.alloc (Tab.dim g { Tab.new g P.kw P.vw with bpg := g.rehashBpg, tb := 0 })
      obtain ⟨o', full', ho1, ho2⟩ := L.ovf.resize _ _ (2 ^ 0) _ ho0 (by decide)
      have e : Tab.reserveEmpty g { Tab.new g P.kw P.vw with bpg := g.rehashBpg } (2 ^ 0) =
          .ok { Tab.new g P.kw P.vw with bpg := g.rehashBpg, tb := 0, store := s, ovf := o' } := by
        have ho1' : g.ov.resizeBuckets (Tab.new g P.kw P.vw).ovf (2 ^ 0) = .ok o' := ho1
        simp only [Tab.reserveEmpty, reserveBits_pow (show 0 < 64 by omega), ddcheck_ok (never _), ok_bind, hs1, ho1', pure_eq_ok]
      exact reserveWith_same' A L hI hl (fun e he => hK e (hp.mem_iff.mpr he)) hr e
        (.inl ⟨rfl, rfl, L.rbpg_pos, L.rbpg_le, rfl, rfl, rfl, never _, _, _, ho2⟩) (.inl hg)
    · exact reserveWith_same A L hI hl (fun e he => hK e (hp.mem_iff.mpr he)) hr hlo hhi (by show _ < 65; omega)

/-- one call -/
theorem step_same (A : OvAgree a g.ov K G) (L : Laws g P) (hg : P.grow < 65) {t : Tab S O} {l : List (Nat × Nat)} (h : Inv g P t l)
    (hK : ∀ e ∈ l, K e.1) (hG : G t.ovf) {op : MapOp} (hop : OpOK P op) (ht : op.tame K) :
    Same (fun r => G r.1.ovf) (t.step (g.withOv a) op) (t.step g op) := by
  cases op with
  | insert k v =>
    refine (insert_same A L hg h hK hop.1 ht hop.2 hG).bind fun r hr _ => ?_
    obtain ⟨t', n⟩ := r
    simp only [keyAt_withOv A, valueAt_withOv A]
    refine (Same.triv _).bind fun _ _ _ => (Same.triv _).bind fun _ _ _ => ?_
    exact Same.ok (Q := fun r : Tab S O × Ans => G r.1.ovf) hr
  | get k =>
    refine (insert_same A L hg h hK hop.1 ht hop.2 hG).bind fun r hr _ => ?_
    obtain ⟨t', n⟩ := r
    simp only [valueAt_withOv A]
    refine (Same.triv _).bind fun _ _ _ => ?_
    exact Same.ok (Q := fun r : Tab S O × Ans => G r.1.ovf) hr
  | assign k v =>
    refine (insert_same A L hg h hK hop.1 ht hop.2.2 hG).bind fun r hr _ => ?_
    refine (writeValue_withOv A _ hr _ _).bind fun t' ht' _ => ?_
    exact Same.ok (Q := fun r : Tab S O × Ans => G r.1.ovf) ht'
  | find k =>
    simp only [Tab.step]
    rw [find_withOv A t hG ht]
    refine (Same.triv _).bind fun n _ _ => ?_
    rw [navEq_withOv A, keyAt_withOv A, valueAt_withOv A]
    refine (Same.triv _).bind fun e _ _ => ?_
    split
    · exact Same.ok (Q := fun r : Tab S O × Ans => G r.1.ovf) hG
    · refine (Same.triv _).bind fun _ _ _ => (Same.triv _).bind fun _ _ _ => ?_
      exact Same.ok (Q := fun r : Tab S O × Ans => G r.1.ovf) hG
  | count k =>
    simp only [Tab.step, Tab.count]
    rw [find_withOv A t hG ht]
    simp only [navEq_withOv A]
    refine (Same.triv _).bind fun _ _ _ => ?_
    exact Same.ok (Q := fun r : Tab S O × Ans => G r.1.ovf) hG
  | erase k => exact ht.elim
  | clear => exact ht.elim
  | size => exact Same.ok (Q := fun r : Tab S O × Ans => G r.1.ovf) hG
  | empty => exact Same.ok (Q := fun r : Tab S O × Ans => G r.1.ovf) hG
  | reserve n =>
    obtain ⟨r, hr, h0, hhi⟩ := hop
    refine (reserve_same A L hg h hK hG hr h0 hhi).bind fun t' ht' _ => ?_
    exact Same.ok (Q := fun r : Tab S O × Ans => G r.1.ovf) ht'
  | shrink =>
    refine (shrink_withOv (a := a) t hG).bind fun t' ht' _ => ?_
    exact Same.ok (Q := fun r : Tab S O × Ans => G r.1.ovf) ht'

/-- the keys stored after a call are the old ones and the one the call mentions -/
theorem tame_keys {K : Nat → Prop} {m : FMap} (hm : ∀ k, (m.get k).isSome = true → K k) (tr : Nat → Nat) {op : MapOp} (ht : op.tame K) :
    ∀ k, ((m.step tr op).1.get k).isSome = true → K k := by
  have put : ∀ k v, K k → ∀ x, ((m.put k v).get x).isSome = true → K x := by
    intro k v hk x hx
    simp only [FMap.put] at hx
    split at hx
    · next e => rw [e]; exact hk
    · exact hm x hx
  intro x hx
  cases op with
  | insert k v =>
    simp only [FMap.step] at hx
    split at hx
    · exact hm x hx
    · exact put k _ ht x hx
  | get k =>
    simp only [FMap.step] at hx
    split at hx
    · exact hm x hx
    · exact put k _ ht x hx
  | assign k v => exact put k _ ht x hx
  | find k =>
    simp only [FMap.step] at hx
    split at hx <;> exact hm x hx
  | erase k => exact ht.elim
  | clear => exact ht.elim
  | _ => exact hm x hx

/-- a sequence of calls -/
theorem run_same (A : OvAgree a g.ov K G) (L : Laws g P) (hg : P.grow < 65) : ∀ (ops : List MapOp) {t : Tab S O} {l : List (Nat × Nat)}
    {m : FMap}, Inv g P t l → Abs l m → (∀ k, (m.get k).isSome = true → K k) → G t.ovf → (∀ op ∈ ops, OpOK P op ∧ op.tame K) →
    Same (fun r => G r.1.ovf) (Tab.run (g.withOv a) t ops) (Tab.run g t ops) := by
  intro ops
  induction ops with
  | nil => intro t l m _ _ _ hG _; exact Same.ok (Q := fun r : Tab S O × List Ans => G r.1.ovf) hG
  | cons op ops ih =>
    intro t l m h ha hm hG hops
    obtain ⟨hop, ht⟩ := hops op (by simp)
    have hK : ∀ e ∈ l, K e.1 := fun e he => hm e.1 (by rw [(ha.get e.1 e.2).mpr he]; rfl)
    obtain ⟨t1, l1, h1, h2, h3⟩ := Tab.step_ok L hg h ha op hop
    have hs := step_same A L hg h hK hG hop ht
    have := ih h2 h3 (tame_keys hm _ ht) (hs.2 _ h1) (fun op' hop' => hops op' (by simp [hop']))
    simp only [Tab.run, hs.1, h1, ok_bind]
    refine this.bind fun r hr _ => ?_
    exact Same.ok (Q := fun r : Tab S O × List Ans => G r.1.ovf) hr

/-- **a history of a new table**: the table with the other overflow table gives the answers of the finite map -/
theorem run_withOv (A : OvAgree a g.ov K G) (L : Laws g P) (hg : P.grow < 65) (ops : List MapOp)
    (hops : ∀ op ∈ ops, OpOK P op ∧ op.tame K) :
    ∃ t l, Tab.run (g.withOv a) (Tab.new (g.withOv a) P.kw P.vw) ops = .ok (t, FMap.empty.run (P.norm P.vw) ops) ∧ Inv g P t l ∧
      Abs l (FMap.empty.after (P.norm P.vw) ops) ∧ G t.ovf := by
  obtain ⟨t, l, h1, h2, h3⟩ := Tab.run_new L hg ops (fun op hop => (hops op hop).1)
  have := run_same A L hg ops (Inv.new L) Abs.empty (by intro k hk; cases hk) (A.gnew P.kw P.vw) hops
  exact ⟨t, l, by rw [new_withOv A, this.1, h1], h2, h3, this.2 _ h1⟩

end SC
