import Verif.Table.TightG
/-!
# The number of buckets as a function of the history, for tables with groups of buckets
-/
namespace SC

/-- `s` is the least number from `x` on for which no more than `M` keys fall into the same group of `w` of `2^s` buckets -/
structure LeastFitG (H : HashMapping) (M w x : Nat) (X : Nat → Prop) (s : Nat) : Prop where
  ge : x ≤ s
  fits : UncrowdedG H M w s X
  least : ∀ s', x ≤ s' → s' < s → ¬ UncrowdedG H M w s' X

/-- From `2^x` buckets in groups of `w` to `s'`: nothing changes if no group is crowded with the keys `X`.  Otherwise the table is rebuilt with at
least twice the number of buckets and groups of `R` buckets. -/
def Regrown (H : HashMapping) (M R x w : Nat) (X : Nat → Prop) (s' : Nat × Nat) : Prop :=
  (UncrowdedG H M w x X → s' = (x, w)) ∧ (¬ UncrowdedG H M w x X → LeastFitG H M R (x + 1) X s'.1 ∧ s'.2 = R)

/-- How a call changes the logarithm of the number of buckets (0: no buckets) and the size of groups of a table that holds `m`: the first
insertion starts with `2^ini` buckets. -/
def GroupStep (H : HashMapping) (M R ini : Nat) (tr : Nat → Nat) (m : FMap) (s : Nat × Nat) (op : MapOp) (s' : Nat × Nat) : Prop :=
  match op with
  | .insert _ _ | .get _ | .assign _ _ =>
    Regrown H M R (if s.1 = 0 then ini else s.1) s.2 (m.step tr op).1.keys s'
  | .reserve n => (∃ r, Log2Up n r ∧ (m.size = 0 → s'.1 = r) ∧ (m.size ≠ 0 → LeastFitG H M R (if r = 0 then ini else r) m.keys s'.1)) ∧
    s'.2 = if s.1 = 0 then s.2 else R
  | .clear => s' = (0, s.2)
  | _ => s' = s

/-- the same for a sequence of calls -/
def GroupAfter (H : HashMapping) (M R ini : Nat) (tr : Nat → Nat) : FMap → Nat × Nat → List MapOp → Nat × Nat → Prop
  | _, s, [], s' => s' = s
  | m, s, op :: ops, s' => ∃ s1, GroupStep H M R ini tr m s op s1 ∧ GroupAfter H M R ini tr (m.step tr op).1 s1 ops s'

theorem LeastFitG.unique {H : HashMapping} {M w x s s' : Nat} {X : Nat → Prop} (h : LeastFitG H M w x X s) (h' : LeastFitG H M w x X s') : s = s' := by
  rcases Nat.lt_trichotomy s s' with hl | he | hl
  · exact absurd h.fits (h'.least s h.ge hl)
  · exact he
  · exact absurd h'.fits (h.least s' h'.ge hl)

/-- number of buckets and size of groups are functions of the history -/
theorem GroupStep.unique {H : HashMapping} {M R ini : Nat} {tr : Nat → Nat} {m : FMap} {s s1 s2 : Nat × Nat} {op : MapOp}
    (h : GroupStep H M R ini tr m s op s1) (h' : GroupStep H M R ini tr m s op s2) : s1 = s2 := by
  have ins : ∀ X x, Regrown H M R x s.2 X s1 → Regrown H M R x s.2 X s2 → s1 = s2 := by
    intro X x h h'
    by_cases hu : UncrowdedG H M s.2 x X
    · rw [h.1 hu, h'.1 hu]
    · obtain ⟨a1, a2⟩ := h.2 hu
      obtain ⟨b1, b2⟩ := h'.2 hu
      exact Prod.ext (a1.unique b1) (a2.trans b2.symm)
  cases op with
  | insert k v => exact ins _ _ h h'
  | get k => exact ins _ _ h h'
  | assign k v => exact ins _ _ h h'
  | reserve n =>
    obtain ⟨⟨r, h1, h2, h3⟩, h4⟩ := h
    obtain ⟨⟨r', h1', h2', h3'⟩, h4'⟩ := h'
    have e := h1.unique h1'
    subst e
    refine Prod.ext ?_ (h4.trans h4'.symm)
    by_cases hm : m.size = 0
    · rw [h2 hm, h2' hm]
    · exact (h3 hm).unique (h3' hm)
  | _ => exact Eq.trans (show s1 = _ from h) (show s2 = _ from h').symm

theorem GroupAfter.unique {H : HashMapping} {M R ini : Nat} {tr : Nat → Nat} : ∀ {ops : List MapOp} {m : FMap} {s s1 s2 : Nat × Nat},
    GroupAfter H M R ini tr m s ops s1 → GroupAfter H M R ini tr m s ops s2 → s1 = s2 := by
  intro ops
  induction ops with
  | nil => intro m s s1 s2 h h'; exact Eq.trans (show s1 = _ from h) (show s2 = _ from h').symm
  | cons op ops ih =>
    intro m s s1 s2 h h'
    obtain ⟨a, h1, h2⟩ := h
    obtain ⟨b, h1', h2'⟩ := h'
    have e := h1.unique h1'
    subst e
    exact ih h2 h2'

variable {S O : Type} {g : Cfg S O} {P : Par S O}

theorem shrink_loop_bpg : ∀ (l : List Nat) {t t' : Tab S O}, l.foldlM (fun t b => do
    let s ← g.ops.shrink t.store (t.dim g) b
    return { t with store := s }) t = .ok t' → t'.bpg = t.bpg := by
  intro l
  induction l with
  | nil => intro t t' h; cases h; rfl
  | cons b l ih =>
    intro t t' h
    rw [List.foldlM_cons] at h
    obtain ⟨t2, h2, h⟩ := bind_eq_ok h
    obtain ⟨_, _, h2⟩ := bind_eq_ok h2
    cases h2
    have := ih h
    exact this

/-- the calls that change nothing about groups -/
theorem step_stillG {t t' : Tab S O} {op : MapOp} {a : Ans}
    (h1 : ∀ k v, op ≠ .insert k v) (h2 : ∀ k, op ≠ .get k) (h3 : ∀ k v, op ≠ .assign k v) (h4 : ∀ n, op ≠ .reserve n)
    (hs : t.step g op = .ok (t', a)) : t'.bpg = t.bpg := by
  cases op with
  | insert k v => exact absurd rfl (h1 k v)
  | get k => exact absurd rfl (h2 k)
  | assign k v => exact absurd rfl (h3 k v)
  | reserve n => exact absurd rfl (h4 n)
  | clear => cases hs; rfl
  | find k =>
    simp only [Tab.step] at hs
    obtain ⟨_, _, hs⟩ := bind_eq_ok hs
    obtain ⟨e, _, hs⟩ := bind_eq_ok hs
    cases e with
    | true => cases hs; rfl
    | false =>
      simp only [Bool.false_eq_true, if_false] at hs
      obtain ⟨_, _, hs⟩ := bind_eq_ok hs
      obtain ⟨_, _, hs⟩ := bind_eq_ok hs
      cases hs; rfl
  | count k =>
    simp only [Tab.step] at hs
    obtain ⟨_, _, hs⟩ := bind_eq_ok hs
    cases hs; rfl
  | erase k =>
    simp only [Tab.step] at hs
    obtain ⟨⟨t1, n⟩, h1, hs⟩ := bind_eq_ok hs
    cases hs
    unfold Tab.erase at h1
    split at h1
    · cases h1; rfl
    · obtain ⟨n, _, h1⟩ := bind_eq_ok h1
      unfold Tab.eraseNav at h1
      split at h1
      · cases h1; rfl
      · split at h1
        · obtain ⟨_, _, h1⟩ := bind_eq_ok h1
          cases h1; rfl
        · obtain ⟨_, _, h1⟩ := bind_eq_ok h1
          obtain ⟨_, _, h1⟩ := bind_eq_ok h1
          cases h1; rfl
  | size => cases hs; rfl
  | empty => cases hs; rfl
  | shrink =>
    simp only [Tab.step] at hs
    obtain ⟨t1, h1, hs'⟩ := bind_eq_ok hs
    clear hs
    cases hs'
    unfold Tab.shrink at h1
    split at h1
    · cases h1; rfl
    · exact shrink_loop_bpg _ h1

theorem reserveEmpty_dims {t t' : Tab S O} {n r : Nat} (hr : reserveBits n = .ok r) (h : t.reserveEmpty g n = .ok t') :
    t'.tb = r ∧ t'.bpg = t.bpg := by
  unfold Tab.reserveEmpty at h
  rw [hr, ok_bind] at h
  obtain ⟨_, _, h⟩ := bind_eq_ok h
  obtain ⟨_, _, h⟩ := bind_eq_ok h
  obtain ⟨_, _, h⟩ := bind_eq_ok h
  cases h; exact ⟨rfl, rfl⟩

/-- What is demanded of a table without overflow table. -/
structure BitwiseG (g : Cfg S O) (P : Par S O) : Prop where
  laws : Laws g P
  grow65 : P.grow < 65
  noOv : ∀ o n l full, P.RepO o n l full → l = []
  grouped : Grouped g P
  coarse : Coarse (g.hash P.kw) P.kw
  pow : ∃ e, g.rehashBpg = 2 ^ e

/-- `reserve` as called by a user -/
theorem Inv.reserve_tightG (L : Laws g P) (hg : P.grow < 65) (K : Grouped g P) {X : Nat → Prop} {G : Nat}
    (hG : ∀ tb, G ≤ tb → 1 ≤ tb → tb < 64 → UncrowdedG (g.hash P.kw) P.maxE g.rehashBpg tb X) {t t' : Tab S O} {l : List (Nat × Nat)} (h : Inv g P t l)
    (hX : ∀ e ∈ l, X e.1) {n r : Nat} (hr : reserveBits n = .ok r) (h0 : r = 0 ∧ P.one = true ∨ P.lo ≤ r) (hhi : r ≤ P.hi)
    (hres : t.reserve g n = .ok t') :
    (t'.bpg = if t.tb = 0 then t.bpg else g.rehashBpg) ∧ (l = [] → t'.tb = r) ∧
    (l ≠ [] → t.tb ≠ 0 ∧ P.start r ≤ t'.tb ∧ t'.tb ≤ max (P.start r) G) := by
  have hr64 : r < 64 := Nat.lt_of_le_of_lt hhi L.hi_lt
  have base : ∀ (t : Tab S O) m full n, P.one = true → reserveBits n = .ok 0 → t.kw = P.kw → t.vw = P.vw → 1 ≤ t.bpg → t.bpg ≤ 64 → t.elems = 0 →
      P.RepO t.ovf m [] full → ∃ t', t.reserveEmpty g n = .ok t' ∧ Inv g P t' [] := by
    intro t m full n hone hr h1 h2 h3 h4 h5 h6
    obtain ⟨s, hs1, hs2⟩ := L.store.alloc (Tab.dim g { t with tb := 0 })
    obtain ⟨o', full', ho1, ho2⟩ := L.ovf.resize _ _ (2 ^ 0) _ h6 (by decide)
    refine ⟨{ t with tb := 0, store := s, ovf := o' }, ?_, .inl ⟨h1, h2, h3, h4, rfl, h5, rfl, L.never hone _, _, _, ho2⟩⟩
    simp only [Tab.reserveEmpty, hr, ddcheck_ok (L.never hone _), ok_bind, hs1, ho1, pure_eq_ok]
  have hall := h
  rcases h with ⟨h1, h2, h3, h4, h5, h6, rfl, hst, m, full, h7⟩ | ⟨c, o, full, hl, hp⟩
  · unfold Tab.reserve Tab.reserveWith at hres
    rw [hr, ok_bind, if_pos h5] at hres
    obtain ⟨d1, d2⟩ := reserveEmpty_dims hr hres
    rw [if_pos h5]
    exact ⟨d2, fun _ => d1, fun h => absurd rfl h⟩
  · have htb := hl.tb_pos L
    obtain ⟨t1, f1, f2⟩ := reserveWith_fold L (Tab.findOrInsert g depth) hl hr hres
    obtain ⟨e1, e2⟩ := reserveEmpty_dims (reserveBits_pow hr64) f1
    have e2 : t1.bpg = g.rehashBpg := e2
    have hinv : Inv g P t1 [] := by
      obtain ⟨full0, ho0⟩ := L.ovf.new P.kw P.vw
      rcases h0 with ⟨rfl, hone⟩ | hlo
      · obtain ⟨t2, g1, g2⟩ := base { Tab.new g P.kw P.vw with bpg := g.rehashBpg } 0 full0 (2 ^ 0) hone (reserveBits_pow (by omega)) rfl rfl
          L.rbpg_pos L.rbpg_le rfl ho0
        rw [f1] at g1
        cases g1
        exact g2
      · obtain ⟨t1', full1, h1, h2, h3, _⟩ := reserveEmpty_ok L
          (t := { Tab.new g P.kw P.vw with bpg := g.rehashBpg }) (n := 2 ^ r) (r := r) rfl rfl L.rbpg_pos L.rbpg_le rfl
          ho0 L.fresh (reserveBits_pow hr64) hlo hhi
        rw [f1] at h1
        cases h1
        exact .inr ⟨_, _, _, h2, by rw [ents_nil]⟩
    obtain ⟨m0, m1, m2⟩ := insAll_tightG L hG (ins_tightG L K hG depth) (ents (g.hash P.kw) t.tb c o) t1 t' [] hinv (.inl hg) e2
      (fun e he => ⟨hall.key_lt L (hp.mem_iff.mpr he), hall.val_norm (hp.mem_iff.mpr he)⟩)
      (by simpa using ents_nodup (hl.map_ok L) hl.cok) (fun e he => hX e (hp.mem_iff.mpr (by simpa using he))) f2
    rw [← e1, if_neg (show ¬ t.tb = 0 by omega)]
    refine ⟨m0, fun h => ?_, fun h => ⟨by omega, m2 (fun e => h (by rw [e] at hp; exact hp.eq_nil))⟩⟩
    rw [m1 (by rw [h] at hp; exact hp.symm.eq_nil)]

/-- **one call** -/
theorem step_group (B : BitwiseG g P) {t t' : Tab S O} {l : List (Nat × Nat)} {m : FMap} (h : Inv g P t l) (ha : Abs l m) {op : MapOp} {a : Ans}
    (hop : OpOK P op) (hN : ∀ n, op = .reserve n → 1 ≤ n ∧ n ≤ 2 ^ 63) (hs : t.step g op = .ok (t', a)) :
    GroupStep (g.hash P.kw) P.maxE g.rehashBpg P.ini (P.norm P.vw) m (t.tb, t.bpg) op (t'.tb, t'.bpg) := by
  have L := B.laws
  obtain ⟨e, he⟩ := B.pow
  obtain ⟨t1, l1, h1, h2, h3⟩ := Tab.step_ok L B.grow65 h ha op hop
  rw [hs] at h1
  cases h1
  have hini := L.init.2.1
  have hlo := L.lo_pos
  have hpos : ∀ s, 1 ≤ P.start s := fun s => by unfold Par.start; split <;> omega
  have h64 := h2.tb_lt L
  have least : ∀ (x : Nat) (X : Nat → Prop), 1 ≤ x → (∀ k, X k → k < 2 ^ P.kw) → UncrowdedG (g.hash P.kw) P.maxE g.rehashBpg t'.tb X →
      (∀ G, (∀ tb, G ≤ tb → 1 ≤ tb → tb < 64 → UncrowdedG (g.hash P.kw) P.maxE g.rehashBpg tb X) → x ≤ t'.tb ∧ t'.tb ≤ max x G) →
      LeastFitG (g.hash P.kw) P.maxE g.rehashBpg x X t'.tb := by
    intro x X hx hlt hfit hall
    refine ⟨(hall 64 (fun tb h1 _ h3 => by omega)).1, hfit, fun s' hs1 hs2 hf => ?_⟩
    have := (hall s' (fun tb h1 h2 h3 => by rw [he] at hf ⊢; exact hf.mono B.coarse hlt (by omega) h1 h3)).2
    omega
  have ins : ((∃ k v, op = .insert k v) ∨ (∃ k, op = .get k) ∨ ∃ k v, op = .assign k v) →
      (UncrowdedG (g.hash P.kw) P.maxE t.bpg (P.start t.tb) (m.step (P.norm P.vw) op).1.keys → (t'.tb, t'.bpg) = (P.start t.tb, t.bpg)) ∧
      (¬ UncrowdedG (g.hash P.kw) P.maxE t.bpg (P.start t.tb) (m.step (P.norm P.vw) op).1.keys →
        LeastFitG (g.hash P.kw) P.maxE g.rehashBpg (P.start t.tb + 1) (m.step (P.norm P.vw) op).1.keys t'.tb ∧ t'.bpg = g.rehashBpg) := by
    intro hi
    obtain ⟨k, v, t1, n, hk, hv, hin, ⟨htb, hbp⟩, hkeys⟩ := step_insert (P := P) hop hi hs
    have hall : ∀ G, (∀ tb, G ≤ tb → 1 ≤ tb → tb < 64 → UncrowdedG (g.hash P.kw) P.maxE g.rehashBpg tb (m.step (P.norm P.vw) op).1.keys) →
        GrownG g P (m.step (P.norm P.vw) op).1.keys G t t' := by
      intro G hG
      have := ins_tightG L B.grouped hG depth t l k v t1 n h
        (fun e he => (hkeys _ _ _).mpr (.inr ((ha.keys_iff _).mpr (List.mem_map.mpr ⟨e, he, rfl⟩))))
        ((hkeys _ _ _).mpr (.inl rfl)) hk hv (.inl B.grow65) hin
      unfold GrownG at this ⊢
      rw [htb, hbp]
      exact this
    have h0 := hpos t.tb
    have hfit : t'.tb ≠ 0 → UncrowdedG (g.hash P.kw) P.maxE t'.bpg t'.tb (m.step (P.norm P.vw) op).1.keys :=
      fun hne => h2.fitsG L B.grouped B.noOv h3 hne
    constructor
    · intro hu
      rcases hall 64 (fun tb h1 _ h3 => by omega) with ⟨a1, a2⟩ | ⟨a1, _⟩
      · rw [a1, a2]
      · exact absurd hu a1
    · intro hu
      have split : ∀ G, (∀ tb, G ≤ tb → 1 ≤ tb → tb < 64 → UncrowdedG (g.hash P.kw) P.maxE g.rehashBpg tb (m.step (P.norm P.vw) op).1.keys) →
          t'.bpg = g.rehashBpg ∧ P.start t.tb + 1 ≤ t'.tb ∧ t'.tb ≤ max (P.start t.tb + 1) G := by
        intro G hG
        rcases hall G hG with ⟨a1, a2⟩ | ⟨_, a2⟩
        · have := hfit (by omega)
          rw [a1, a2] at this
          exact absurd this hu
        · exact a2
      obtain ⟨b1, b2, _⟩ := split 64 (fun tb h1 _ h3 => by omega)
      have := hfit (by omega)
      rw [b1] at this
      exact ⟨least _ _ (by omega) (h2.keys_lt L h3) this (fun G hG => (split G hG).2), b1⟩
  cases op with
  | insert k v => exact ins (.inl ⟨k, v, rfl⟩)
  | get k => exact ins (.inr (.inl ⟨k, rfl⟩))
  | assign k v => exact ins (.inr (.inr ⟨k, v, rfl⟩))
  | reserve n =>
    obtain ⟨n1, n2⟩ := hN n rfl
    have hc := reserveBits_ceilLog n1 n2
    obtain ⟨r, hr, h0, hhi⟩ := hop
    have e : r = ceilLog n := by rw [hr] at hc; exact Except.ok.inj hc
    subst e
    simp only [Tab.step] at hs
    obtain ⟨t2, hres, hs⟩ := bind_eq_ok hs
    cases hs
    have hall := fun G hG => Inv.reserve_tightG L B.grow65 B.grouped (X := m.keys) (G := G) hG h
      (fun e he => (ha.keys_iff _).mpr (List.mem_map.mpr ⟨e, he, rfl⟩)) hr h0 hhi hres
    have h64' := hall 64 (fun tb h1 _ h3 => by omega)
    refine ⟨⟨ceilLog n, log2Up_ceilLog n1, fun hm => ?_, fun hm => ?_⟩, h64'.1⟩
    · exact h64'.2.1 (List.eq_nil_of_length_eq_zero (by rw [← ha.size]; exact hm))
    · have hne : l ≠ [] := fun e => hm (by rw [ha.size, e]; rfl)
      obtain ⟨c1, c2, _⟩ := h64'.2.2 hne
      have := hpos (ceilLog n)
      have hsame : (m.step (P.norm P.vw) (.reserve n)).1 = m := rfl
      rw [hsame] at h3
      have hf := h2.fitsG L B.grouped B.noOv h3 (by omega)
      rw [h64'.1, if_neg c1] at hf
      exact least (P.start (ceilLog n)) m.keys this (h.keys_lt L ha) hf (fun G hG => ((hall G hG).2.2 hne).2)
  | clear => cases hs; rfl
  | _ => exact Prod.ext (step_still L h hop (by simp) (by simp) (by simp) (by simp) (by simp) hs)
          (step_stillG (by simp) (by simp) (by simp) (by simp) hs)

/-- **a history** -/
theorem run_group (B : BitwiseG g P) : ∀ (ops : List MapOp) {t t' : Tab S O} {l : List (Nat × Nat)} {m : FMap} {as : List Ans},
    Inv g P t l → Abs l m → (∀ op ∈ ops, OpOK P op) → (∀ n, .reserve n ∈ ops → 1 ≤ n ∧ n ≤ 2 ^ 63) → Tab.run g t ops = .ok (t', as) →
    GroupAfter (g.hash P.kw) P.maxE g.rehashBpg P.ini (P.norm P.vw) m (t.tb, t.bpg) ops (t'.tb, t'.bpg) := by
  intro ops
  induction ops with
  | nil => intro t t' l m as _ _ _ _ hs; cases hs; exact rfl
  | cons op ops ih =>
    intro t t' l m as h ha hops hN hs
    obtain ⟨t1, l1, h1, h2, h3⟩ := Tab.step_ok B.laws B.grow65 h ha op (hops op (by simp))
    have h4 := step_group B h ha (hops op (by simp)) (fun n hn => hN n (by simp [hn])) h1
    simp only [Tab.run, h1, ok_bind] at hs
    obtain ⟨⟨t2, as2⟩, h5, hs⟩ := bind_eq_ok hs
    cases hs
    exact ⟨(t1.tb, t1.bpg), h4, ih h2 h3 (fun op' hop' => hops op' (by simp [hop'])) (fun n hn => hN n (by simp [hn])) h5⟩

/-- How a table with overflow table compares to one without, each given by the logarithm of the number of buckets and the size of groups: they agree,
or the first has fewer buckets, or - only if `late` - they have the same number, which is at most the size `2^e` of groups of rebuilt tables, and
the second was rebuilt before. -/
def Behind (e : Nat) (late : Prop) (s' s : Nat × Nat) : Prop :=
  (s'.1 = 0 ↔ s.1 = 0) ∧ (s' = s ∨ s.2 = 2 ^ e ∧ s'.1 < s.1 ∨ late ∧ s.2 = 2 ^ e ∧ s'.1 = s.1 ∧ s.1 ≤ e)

/-- there is only one group of `2^e` buckets -/
theorem UncrowdedG.one {H : HashMapping} {kw M e w s : Nat} {X : Nat → Prop} (hH : LawfulMapping H kw s) (hX : ∀ k, X k → k < 2 ^ kw)
    (hs : s ≤ e) (h : UncrowdedG H M (2 ^ e) s X) : UncrowdedG H M w s X := by
  intro j ks hn hk
  refine h 0 ks hn (fun k hm => ⟨(hk k hm).1, ?_⟩)
  obtain ⟨q, b, hq, _⟩ := (hk k hm).2
  have hb := (invKey_of_map hH (hX k (hk k hm).1) hq).2.1
  exact ⟨q, b, hq, Nat.div_eq_of_lt (Nat.lt_of_lt_of_le hb (Nat.pow_le_pow_right (by omega) hs))⟩

theorem Inv.start_mapping (L : Laws g P) {t : Tab S O} {l : List (Nat × Nat)} (h : Inv g P t l) : LawfulMapping (g.hash P.kw) P.kw (P.start t.tb) := by
  have hini := L.init.2
  rcases h with ⟨_, _, _, _, h5, _⟩ | ⟨c, o, full, hl, _⟩
  · rw [h5]; exact L.mapping _ hini.1 hini.2
  · rw [P.start_pos (hl.tb_pos L)]; exact hl.map_ok L

/-- **a table with an overflow table never has more buckets**: one call.  After `clear` the sizes of groups may differ; then the number of
buckets must not be made large at once by `reserve`. -/
theorem step_group_ov {S' O' : Type} {g' : Cfg S' O'} {P' : Par S' O'} (B : BitwiseG g P) (L' : Laws g' P') (hg' : P'.grow < 65) (K' : Grouped g' P')
    (hH : g'.hash P'.kw = g.hash P.kw) (hE : P'.maxE = P.maxE) (hI : P'.ini = P.ini) {e : Nat} (hR : g.rehashBpg = 2 ^ e) (hR' : g'.rehashBpg = 2 ^ e)
    (hini : P.ini ≤ e) {late : Prop} {t t1 : Tab S O} {l : List (Nat × Nat)} {m : FMap} (h : Inv g P t l) (ha : Abs l m) {op : MapOp} {a : Ans}
    (hop : OpOK P op) (hs : t.step g op = .ok (t1, a)) {t' t1' : Tab S' O'} {l' : List (Nat × Nat)} (h' : Inv g' P' t' l') (ha' : Abs l' m) {a' : Ans}
    (hop' : OpOK P' op) (hN : ∀ n, op = .reserve n → 1 ≤ n ∧ n ≤ 2 ^ 63) (hs' : t'.step g' op = .ok (t1', a')) (hcl : op = .clear → late)
    (hsm : late → ∀ n, op = .reserve n → n ≤ 2 ^ e) (hle : Behind e late (t'.tb, t'.bpg) (t.tb, t.bpg)) :
    Behind e late (t1'.tb, t1'.bpg) (t1.tb, t1.bpg) := by
  have L := B.laws
  have hbits := step_group B h ha hop hN hs
  obtain ⟨t2, l2, h1, h2, h3⟩ := Tab.step_ok L B.grow65 h ha op hop
  rw [hs] at h1
  cases h1
  have hpos : ∀ s, 1 ≤ P.start s := fun s => by
    have := L.init.2.1
    have := L.lo_pos
    unfold Par.start; split <;> omega
  have est : ∀ s, P'.start s = P.start s := fun s => by unfold Par.start; rw [hI]
  obtain ⟨hz, hcase⟩ := hle
  simp only at hz hcase
  -- where the tables start
  have hst : P.start t'.tb ≤ P.start t.tb := by
    unfold Par.start
    rcases hcase with hc | hc | hc
    · rw [(Prod.mk.inj hc).1]
    · have := hc.2; split <;> split <;> omega
    · rw [hc.2.2.1]
  have ins : ((∃ k v, op = .insert k v) ∨ (∃ k, op = .get k) ∨ ∃ k v, op = .assign k v) →
      Regrown (g.hash P.kw) P.maxE g.rehashBpg (P.start t.tb) t.bpg (m.step (P.norm P.vw) op).1.keys (t1.tb, t1.bpg) →
      Behind e late (t1'.tb, t1'.bpg) (t1.tb, t1.bpg) := by
    intro hi hre
    have hkeysLt := h2.keys_lt L h3
    have h0 := hpos t.tb
    have h0' := hpos t'.tb
    obtain ⟨k, v, t3, n, hk, hv, hin, ⟨htb, hbp⟩, hkeys⟩ := step_insert (P := P') hop' hi hs'
    have grown : ∀ G, (∀ tb, G ≤ tb → 1 ≤ tb → tb < 64 → UncrowdedG (g.hash P.kw) P.maxE (2 ^ e) tb (m.step (P.norm P.vw) op).1.keys) →
        (t1'.tb = P.start t'.tb ∧ t1'.bpg = t'.bpg) ∨ (¬ UncrowdedG (g.hash P.kw) P.maxE t'.bpg (P.start t'.tb) (m.step (P.norm P.vw) op).1.keys ∧
          t1'.bpg = 2 ^ e ∧ P.start t'.tb + 1 ≤ t1'.tb ∧ t1'.tb ≤ max (P.start t'.tb + 1) G) := by
      intro G hG
      have := ins_tightG L' K' (X := (m.step (P.norm P.vw) op).1.keys) (G := G) (by rw [hH, hE, hR']; exact hG) depth t' l' k v t3 n h'
        (fun e he => (hkeys _ _ _).mpr (.inr ((ha'.keys_iff _).mpr (List.mem_map.mpr ⟨e, he, rfl⟩)))) ((hkeys _ _ _).mpr (.inl rfl)) hk hv (.inl hg') hin
      unfold GrownG at this
      rw [← htb, ← hbp, est, hH, hE, hR'] at this
      exact this
    rw [hR] at hre
    by_cases hu : UncrowdedG (g.hash P.kw) P.maxE t.bpg (P.start t.tb) (m.step (P.norm P.vw) op).1.keys
    · obtain ⟨c1, c2⟩ := Prod.mk.inj (hre.1 hu)
      rw [c1, c2]
      rcases hcase with hc | hc | hc
      · obtain ⟨d1, d2⟩ := Prod.mk.inj hc
        rcases grown 64 (fun tb h1 _ h3 => by omega) with ⟨g1, g2⟩ | ⟨g1, _⟩
        · rw [g1, g2, d1, d2]; exact ⟨Iff.rfl, .inl rfl⟩
        · rw [d1, d2] at g1; exact absurd hu g1
      · have hlt : P.start t'.tb < P.start t.tb := by
          unfold Par.start
          rw [if_neg (fun h0 => by have := hz.mp h0; omega), if_neg (show t.tb ≠ 0 by omega)]
          exact hc.2
        rw [hc.1] at hu
        rcases grown (P.start t.tb) (fun tb h4 _ h6 => hu.mono B.coarse hkeysLt h0 h4 h6) with ⟨g1, g2⟩ | ⟨_, g2, g3, g4⟩
        · exact ⟨by simp only; omega, .inr (.inl ⟨hc.1, by simp only; omega⟩)⟩
        · refine ⟨by simp only; omega, ?_⟩
          rcases Nat.lt_or_ge t1'.tb (P.start t.tb) with hx | hx
          · exact .inr (.inl ⟨hc.1, hx⟩)
          · exact .inl (Prod.ext (show t1'.tb = P.start t.tb by omega) (g2.trans hc.1.symm))
      · obtain ⟨hla, d1, d2, d3⟩ := hc
        have hse : P.start t.tb ≤ e := by unfold Par.start; split <;> omega
        rw [d1] at hu
        rcases grown 64 (fun tb h1 _ h3 => by omega) with ⟨g1, g2⟩ | ⟨g1, _⟩
        · rw [g1, d2]; exact ⟨Iff.rfl, .inr (.inr ⟨hla, d1, rfl, hse⟩)⟩
        · rw [d2] at g1
          exact absurd (hu.one (h.start_mapping L) hkeysLt hse) g1
    · obtain ⟨c1, c2⟩ := hre.2 hu
      simp only at c1 c2
      have c3 := c1.ge
      rcases grown t1.tb (fun tb h4 _ h6 => c1.fits.mono B.coarse hkeysLt (by omega) h4 h6) with ⟨g1, g2⟩ | ⟨_, g2, g3, g4⟩
      · exact ⟨by simp only; omega, .inr (.inl ⟨c2, by simp only; omega⟩)⟩
      · refine ⟨by simp only; omega, ?_⟩
        rcases Nat.lt_or_ge t1'.tb t1.tb with hx | hx
        · exact .inr (.inl ⟨c2, hx⟩)
        · exact .inl (Prod.ext (show t1'.tb = t1.tb by omega) (g2.trans c2.symm))
  cases op with
  | insert k v => exact ins (.inl ⟨k, v, rfl⟩) hbits
  | get k => exact ins (.inr (.inl ⟨k, rfl⟩)) hbits
  | assign k v => exact ins (.inr (.inr ⟨k, v, rfl⟩)) hbits
  | reserve n =>
    obtain ⟨n1, n2⟩ := hN n rfl
    have hc := reserveBits_ceilLog n1 n2
    obtain ⟨⟨r, hr, b1, b2⟩, b3⟩ := hbits
    have e0 := hr.unique (log2Up_ceilLog n1)
    subst e0
    obtain ⟨r', hr', h0, hhi⟩ := hop'
    have e0 : r' = ceilLog n := by rw [hr'] at hc; exact Except.ok.inj hc
    subst e0
    simp only [Tab.step] at hs'
    obtain ⟨t3, hres, hs'⟩ := bind_eq_ok hs'
    cases hs'
    have hsame : (m.step (P.norm P.vw) (.reserve n)).1 = m := rfl
    rw [hsame] at h3
    rw [hR] at b2 b3
    have hall := fun G hG => Inv.reserve_tightG L' hg' K' (X := m.keys) (G := G) hG h'
        (fun e he => (ha'.keys_iff _).mpr (List.mem_map.mpr ⟨e, he, rfl⟩)) hr' h0 hhi hres
    obtain ⟨a1, a2, _⟩ := hall 64 (fun tb h1 _ h3 => by omega)
    rw [hR'] at a1
    simp only at b1 b2 b3
    by_cases hm : m.size = 0
    · have e1 := b1 hm
      have e2 := a2 (List.eq_nil_of_length_eq_zero (by rw [← ha'.size]; exact hm))
      rw [e1, e2]
      refine ⟨Iff.rfl, ?_⟩
      rcases hcase with hc | hc | hc
      · obtain ⟨d1, d2⟩ := Prod.mk.inj hc
        rw [a1, b3, d1, d2]; exact .inl rfl
      · rw [a1, b3, if_neg (fun h0 => by have := hz.mp h0; omega), if_neg (show t.tb ≠ 0 by omega)]; exact .inl rfl
      · obtain ⟨hla, d1, d2, d3⟩ := hc
        refine .inr (.inr ⟨hla, ?_, rfl, hr.2 _ (hsm hla n rfl)⟩)
        rw [b3, d1]; split <;> rfl
    · have e1 := b2 hm
      have h5 := hpos (ceilLog n)
      have hge : P.start (ceilLog n) ≤ t1.tb := e1.ge
      have hne : l' ≠ [] := fun e => hm (by rw [ha'.size, e]; rfl)
      obtain ⟨_, _, a5⟩ := hall t1.tb (by
        rw [hH, hE, hR']
        exact fun tb h4 h5 h6 => e1.fits.mono B.coarse (h.keys_lt L ha) (by omega) h4 h6)
      obtain ⟨a6, a7, a8⟩ := a5 hne
      rw [est] at a7 a8
      rw [if_neg a6] at a1
      rw [if_neg (fun h0 => a6 (hz.mpr h0))] at b3
      refine ⟨by simp only; omega, ?_⟩
      rcases Nat.lt_or_ge t1'.tb t1.tb with hx | hx
      · exact .inr (.inl ⟨b3, hx⟩)
      · exact .inl (Prod.ext (show t1'.tb = t1.tb by omega) (a1.trans b3.symm))
  | clear =>
    cases hs
    cases hs'
    refine ⟨Iff.rfl, ?_⟩
    rcases hcase with hc | hc | hc
    · exact .inl (Prod.ext rfl (Prod.mk.inj hc).2)
    · exact .inr (.inr ⟨hcl rfl, hc.1, rfl, Nat.zero_le _⟩)
    · exact .inr (.inr ⟨hcl rfl, hc.2.1, rfl, Nat.zero_le _⟩)
  | _ =>
    rw [step_still L h hop (by simp) (by simp) (by simp) (by simp) (by simp) hs, step_stillG (by simp) (by simp) (by simp) (by simp) hs,
      step_still L' h' hop' (by simp) (by simp) (by simp) (by simp) (by simp) hs', step_stillG (by simp) (by simp) (by simp) (by simp) hs']
    exact ⟨hz, hcase⟩

/-- a history -/
theorem run_group_ov {S' O' : Type} {g' : Cfg S' O'} {P' : Par S' O'} (B : BitwiseG g P) (L' : Laws g' P') (hg' : P'.grow < 65) (K' : Grouped g' P')
    (hH : g'.hash P'.kw = g.hash P.kw) (hE : P'.maxE = P.maxE) (hI : P'.ini = P.ini) {e : Nat} (hR : g.rehashBpg = 2 ^ e) (hR' : g'.rehashBpg = 2 ^ e)
    (hini : P.ini ≤ e) (htr : P'.norm P'.vw = P.norm P.vw) {late : Prop} :
    ∀ (ops : List MapOp) {t t1 : Tab S O} {l : List (Nat × Nat)} {m : FMap} {as : List Ans} {t' t1' : Tab S' O'} {l' : List (Nat × Nat)}
    {as' : List Ans}, Inv g P t l → Abs l m → (∀ op ∈ ops, OpOK P op) → Tab.run g t ops = .ok (t1, as) → Inv g' P' t' l' → Abs l' m →
    (∀ op ∈ ops, OpOK P' op) → Tab.run g' t' ops = .ok (t1', as') → (∀ n, .reserve n ∈ ops → 1 ≤ n ∧ n ≤ 2 ^ 63) →
    (.clear ∈ ops → late) → (late → ∀ n, .reserve n ∈ ops → n ≤ 2 ^ e) →
    Behind e late (t'.tb, t'.bpg) (t.tb, t.bpg) → Behind e late (t1'.tb, t1'.bpg) (t1.tb, t1.bpg) := by
  intro ops
  induction ops with
  | nil => intro t t1 l m as t' t1' l' as' _ _ _ hs _ _ _ hs' _ _ _ hle; cases hs; cases hs'; exact hle
  | cons op ops ih =>
    intro t t1 l m as t' t1' l' as' h ha hops hs h' ha' hops' hs' hN hcl hsm hle
    obtain ⟨t2, l2, g1, g2, g3⟩ := Tab.step_ok B.laws B.grow65 h ha op (hops op (by simp))
    obtain ⟨t2', l2', g1', g2', g3'⟩ := Tab.step_ok L' hg' h' ha' op (hops' op (by simp))
    rw [htr] at g3'
    have key := step_group_ov B L' hg' K' hH hE hI hR hR' hini h ha (hops op (by simp)) g1 h' ha' (hops' op (by simp)) (fun n hn => hN n (by simp [hn])) g1'
      (fun e => hcl (by simp [e])) (fun hl n hn => hsm hl n (by simp [hn])) hle
    simp only [Tab.run, g1, ok_bind] at hs
    obtain ⟨⟨t3, as3⟩, h5, hs⟩ := bind_eq_ok hs
    cases hs
    simp only [Tab.run, g1', ok_bind] at hs'
    obtain ⟨⟨t3', as3'⟩, h5', hs'⟩ := bind_eq_ok hs'
    cases hs'
    exact ih g2 g3 (fun op' hop' => hops op' (by simp [hop'])) h5 g2' g3' (fun op' hop' => hops' op' (by simp [hop'])) h5'
      (fun n hn => hN n (by simp [hn])) (fun hm => hcl (by simp [hm])) (fun hl n hn => hsm hl n (by simp [hn])) key

/-! ## `group_chaining_table` -/

theorem groupOf_perm {tb w b : Nat} (hw : 1 ≤ w) {m : Nat} (hm : m ≤ w)
    (hm1 : ∀ i, i < m → b / w * w + i < 2 ^ tb) (hm2 : ∀ i, m ≤ i → i < w → 2 ^ tb ≤ b / w * w + i) :
    (groupOf tb w (b / w)).Perm ((List.range m).map (fun i => b / w * w + i)) := by
  have n1 : (groupOf tb w (b / w)).Nodup := List.Nodup.sublist List.filter_sublist List.nodup_range
  have n2 : ((List.range m).map (fun i => b / w * w + i)).Nodup := List.Pairwise.map _ (fun x y h => by omega) List.nodup_range
  refine (List.perm_ext_iff_of_nodup n1 n2).mpr (fun x => ?_)
  rw [mem_groupOf, List.mem_map]
  constructor
  · rintro ⟨hx, he⟩
    obtain ⟨h1, h2⟩ := div_mod_bpg (b := x) hw
    rw [he] at h1
    refine ⟨x % w, ?_, h1⟩
    rw [List.mem_range]
    rcases Nat.lt_or_ge (x % w) m with h | h
    · exact h
    · have := hm2 _ h h2; omega
  · rintro ⟨i, hi, rfl⟩
    have hi := List.mem_range.mp hi
    refine ⟨hm1 i hi, ?_⟩
    rw [Nat.mul_comm, Nat.mul_add_div hw, Nat.div_eq_of_lt (show i < w by omega), Nat.add_zero]

/-- the number of elements in the buckets of a group is the size of the group -/
theorem GrpRep.group_sum {sp : Bool} {s : GrpStore} {d : Dim} {cont : Cont} (h : GrpRep sp s d cont) (hp : 1 ≤ d.bpg) (b : Nat) :
    ((groupOf d.tb d.bpg (b / d.bpg)).map (fun x => (cont x).length)).sum = (flat (localCont d.bpg cont (b / d.bpg)) d.bpg).length := by
  obtain ⟨m, hm, hm1, hm2⟩ : ∃ m, m ≤ d.bpg ∧ (∀ i, i < m → b / d.bpg * d.bpg + i < 2 ^ d.tb) ∧
      (∀ i, m ≤ i → i < d.bpg → 2 ^ d.tb ≤ b / d.bpg * d.bpg + i) := by
    refine ⟨min d.bpg (2 ^ d.tb - b / d.bpg * d.bpg), Nat.min_le_left _ _, ?_, ?_⟩
    · intro i hi; have := Nat.min_le_right d.bpg (2 ^ d.tb - b / d.bpg * d.bpg); omega
    · intro i hi hi2
      have : min d.bpg (2 ^ d.tb - b / d.bpg * d.bpg) = 2 ^ d.tb - b / d.bpg * d.bpg := by omega
      omega
  rw [((groupOf_perm hp hm hm1 hm2).map _).sum_nat, List.map_map, ← pre_sum, flat_length]
  have e1 : pre ((fun x => (cont x).length) ∘ fun i => b / d.bpg * d.bpg + i) m =
      pre (fun g => (localCont d.bpg cont (b / d.bpg) g).length) m := by
    apply pre_congr
    intro i hi
    simp only [Function.comp, localCont]
    rw [if_pos (by omega)]
  rw [e1]
  exact (pre_cut (f := fun g => (localCont d.bpg cont (b / d.bpg) g).length) hm (by
    intro i hi
    simp only [localCont]
    split
    · rename_i hi2
      rw [h.out _ (hm2 i hi hi2)]; rfl
    · rfl)).symm

theorem grp_grouped (c : GrpCfg) (sp : Bool) (hk : HashKind) (kw vw : Nat) : Grouped (grpMap c hk) (grpPar sp hk kw vw) where
  full := by
    intro s d cont b hd (h : GrpRep sp s d cont) hb hf
    have h2 := h.get hb
    rw [h.group_sum hd.bpg_pos b, ← (h.grp _ h2.1).size.1]
    simp only [grpMap, grpOps, h2.2, ok_bind, pure_eq_ok, Except.ok.injEq, beq_iff_eq] at hf
    rw [hf]
    exact Nat.le_refl _
  room := by
    intro s d cont b (h : GrpRep sp s d cont) hp hb
    rw [h.group_sum hp b]
    exact (h.grp _ (h.get hb).1).size.2

end SC
