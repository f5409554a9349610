import Verif.Table.Tight
import Verif.Table.Observe
/-!
# The number of buckets as a function of the history
-/
namespace SC

/-- `2^r` is the least power of two that is not less than `n` -/
def Log2Up (n r : Nat) : Prop := n ≤ 2 ^ r ∧ ∀ r', n ≤ 2 ^ r' → r ≤ r'

/-- the keys of a map -/
def FMap.keys (m : FMap) (k : Nat) : Prop := m.get k ≠ none

/-- `s` is the least number from `x` on for which no more than `M` keys fall into the same of `2^s` buckets -/
structure LeastFit (H : HashMapping) (M x : Nat) (X : Nat → Prop) (s : Nat) : Prop where
  ge : x ≤ s
  fits : Uncrowded H M s X
  least : ∀ s', x ≤ s' → s' < s → ¬ Uncrowded H M s' X

/-- How a call changes the logarithm `s` of the number of buckets (0: no buckets) of a table that holds `m`: the first insertion
starts with `2^ini` buckets. -/
def BitsStep (H : HashMapping) (M ini : Nat) (tr : Nat → Nat) (m : FMap) (s : Nat) (op : MapOp) (s' : Nat) : Prop :=
  match op with
  | .insert _ _ | .get _ | .assign _ _ => LeastFit H M (if s = 0 then ini else s) (m.step tr op).1.keys s'
  | .reserve n => ∃ r, Log2Up n r ∧ (m.size = 0 → s' = r) ∧ (m.size ≠ 0 → LeastFit H M (if r = 0 then ini else r) m.keys s')
  | .clear => s' = 0
  | _ => s' = s

/-- the same for a sequence of calls -/
def BitsAfter (H : HashMapping) (M ini : Nat) (tr : Nat → Nat) : FMap → Nat → List MapOp → Nat → Prop
  | _, s, [], s' => s' = s
  | m, s, op :: ops, s' => ∃ s1, BitsStep H M ini tr m s op s1 ∧ BitsAfter H M ini tr (m.step tr op).1 s1 ops s'

theorem Log2Up.unique {n r r' : Nat} (h : Log2Up n r) (h' : Log2Up n r') : r = r' :=
  Nat.le_antisymm (h.2 _ h'.1) (h'.2 _ h.1)

theorem log2Up_ceilLog {n : Nat} (h : 1 ≤ n) : Log2Up n (ceilLog n) :=
  ⟨(ceilLog_le_iff h).mp (Nat.le_refl _), fun _ h' => (ceilLog_le_iff h).mpr h'⟩

theorem LeastFit.unique {H : HashMapping} {M x s s' : Nat} {X : Nat → Prop} (h : LeastFit H M x X s) (h' : LeastFit H M x X s') : s = s' := by
  rcases Nat.lt_trichotomy s s' with hl | he | hl
  · exact absurd h.fits (h'.least s h.ge hl)
  · exact he
  · exact absurd h'.fits (h.least s' h'.ge hl)

/-- the number of buckets is a function of the history -/
theorem BitsStep.unique {H : HashMapping} {M ini : Nat} {tr : Nat → Nat} {m : FMap} {s s1 s2 : Nat} {op : MapOp}
    (h : BitsStep H M ini tr m s op s1) (h' : BitsStep H M ini tr m s op s2) : s1 = s2 := by
  cases op with
  | insert k v => exact LeastFit.unique h h'
  | get k => exact LeastFit.unique h h'
  | assign k v => exact LeastFit.unique h h'
  | reserve n =>
    obtain ⟨r, h1, h2, h3⟩ := h
    obtain ⟨r', h1', h2', h3'⟩ := h'
    have e := h1.unique h1'
    subst e
    by_cases hm : m.size = 0
    · rw [h2 hm, h2' hm]
    · exact (h3 hm).unique (h3' hm)
  | _ => exact Eq.trans (show s1 = _ from h) (show s2 = _ from h').symm

theorem BitsAfter.unique {H : HashMapping} {M ini : Nat} {tr : Nat → Nat} : ∀ {ops : List MapOp} {m : FMap} {s s1 s2 : Nat},
    BitsAfter H M ini tr m s ops s1 → BitsAfter H M ini tr m s ops s2 → s1 = s2 := by
  intro ops
  induction ops with
  | nil => intro m s s1 s2 h h'; exact Eq.trans (show s1 = _ from h) (show s2 = _ from h').symm
  | cons op ops ih =>
    intro m s s1 s2 h h'
    obtain ⟨a, h1, h2⟩ := h
    obtain ⟨b, h1', h2'⟩ := h'
    have e := h1.unique h1'
    subst e
    exact ih h2 h2'

variable {S O : Type} {g : Cfg S O} {P : Par S O}

/-- keys in the same bucket stay together when the number of buckets is reduced -/
def Coarse (H : HashMapping) (kw : Nat) : Prop := ∀ k q b s tb, k < 2 ^ kw → 1 ≤ tb → tb ≤ s → s < 64 → H.map k s = .ok (q, b) →
  ∃ q', H.map k tb = .ok (q', b % 2 ^ tb)

theorem Uncrowded.mono {H : HashMapping} {kw M s s' : Nat} {X : Nat → Prop} (hc : Coarse H kw) (h : Uncrowded H M s X) (hX : ∀ k, X k → k < 2 ^ kw)
    (h1 : 1 ≤ s) (h2 : s ≤ s') (h3 : s' < 64) : Uncrowded H M s' X := by
  intro b ks hn hk
  refine h (b % 2 ^ s) ks hn (fun k hm => ⟨(hk k hm).1, ?_⟩)
  obtain ⟨q, hq⟩ := (hk k hm).2
  exact hc k q b s' s (hX k (hk k hm).1) h1 h2 h3 hq

/-- in a table without overflow table every bucket has room for its keys -/
theorem Inv.fits (L : Laws g P) (hov : ∀ o n l full, P.RepO o n l full → l = [])
    (hM : ∀ s d c b, P.Rep s d c → 1 ≤ d.bpg → b < 2 ^ d.tb → (c b).length ≤ P.maxE) {t : Tab S O} {l : List (Nat × Nat)} {m : FMap}
    (h : Inv g P t l) (ha : Abs l m) (htb : t.tb ≠ 0) : Uncrowded (g.hash P.kw) P.maxE t.tb m.keys := by
  rcases h with ⟨_, _, _, _, h5, _⟩ | ⟨c, o, full, hl, hp⟩
  · exact absurd h5 htb
  · intro b ks hn hk
    have ho := hov _ _ _ _ hl.orep
    subst ho
    have hin : ∀ k ∈ ks, ∃ v, (k, v) ∈ l := fun k hk' => by
      have := (hk k hk').1
      unfold FMap.keys at this
      cases e : m.get k with
      | none => exact absurd e this
      | some v => exact ⟨v, (ha.get k v).mp e⟩
    have hlt : ∀ k ∈ ks, k < 2 ^ P.kw := fun k hk' => by
      obtain ⟨v, hv⟩ := hin k hk'
      exact key_lt_of_mem (v := v) (hl.map_ok L) hl.cok (hp.mem_iff.mp hv)
    cases ks with
    | nil => exact Nat.zero_le _
    | cons a ks =>
      have hb : b < 2 ^ t.tb := by
        obtain ⟨q, hq⟩ := (hk a (by simp)).2
        exact (invKey_of_map (hl.map_ok L) (hlt a (by simp)) hq).2.1
      have h2 := hM _ _ _ _ hl.rep (show 1 ≤ t.bpg from hl.bpg_pos) (show b < 2 ^ t.tb from hb)
      have h3 := List.Nodup.length_le_of_subset (l₂ := (c b).map (fun e => invKey (g.hash P.kw) t.tb b e.1)) hn (fun k hk' => by
        obtain ⟨q, hq⟩ := (hk k hk').2
        obtain ⟨v, hv⟩ := hin k hk'
        rcases (mem_ents (hl.map_ok L) hl.cok (hlt k hk') hq).mp (hp.mem_iff.mp hv) with h | ⟨p, h⟩
        · exact List.mem_map.mpr ⟨_, h, (invKey_of_map (hl.map_ok L) (hlt k hk') hq).1⟩
        · simp at h)
      rw [List.length_map] at h3
      omega

/-- `reserve` as called by a user -/
theorem Inv.reserve_tight (L : Laws g P) (hg : P.grow < 65) (hcl : P.cl ≤ 1) {X : Nat → Prop} {G : Nat}
    (hG : ∀ tb, G ≤ tb → 1 ≤ tb → tb < 64 → Uncrowded (g.hash P.kw) P.maxE tb X) {t t' : Tab S O} {l : List (Nat × Nat)} (h : Inv g P t l)
    (hX : ∀ e ∈ l, X e.1) {n r : Nat} (hr : reserveBits n = .ok r) (h0 : r = 0 ∧ P.one = true ∨ P.lo ≤ r) (hhi : r ≤ P.hi)
    (hres : t.reserve g n = .ok t') :
    (l = [] → t'.tb = r) ∧ (l ≠ [] → P.start r ≤ t'.tb ∧ t'.tb ≤ max (P.start r) G) := by
  have hr64 : r < 64 := Nat.lt_of_le_of_lt hhi L.hi_lt
  have empty : ∀ (t t' : Tab S O) n, reserveBits n = .ok r → t.reserveEmpty g n = .ok t' → t'.tb = r := by
    intro t t' n hr h
    unfold Tab.reserveEmpty at h
    rw [hr, ok_bind] at h
    obtain ⟨_, _, h⟩ := bind_eq_ok h
    obtain ⟨_, _, h⟩ := bind_eq_ok h
    obtain ⟨_, _, h⟩ := bind_eq_ok h
    cases h; rfl
  have base : ∀ (t : Tab S O) m full n, P.one = true → reserveBits n = .ok 0 → t.kw = P.kw → t.vw = P.vw → 1 ≤ t.bpg → t.bpg ≤ 64 → t.elems = 0 →
      P.RepO t.ovf m [] full → ∃ t', t.reserveEmpty g n = .ok t' ∧ Inv g P t' [] := by
    intro t m full n hone hr h1 h2 h3 h4 h5 h6
    obtain ⟨s, hs1, hs2⟩ := L.store.alloc (Tab.dim g { t with tb := 0 })
    obtain ⟨o', full', ho1, ho2⟩ := L.ovf.resize _ _ (2 ^ 0) _ h6 (by decide)
    refine ⟨{ t with tb := 0, store := s, ovf := o' }, ?_, .inl ⟨h1, h2, h3, h4, rfl, h5, rfl, L.never hone _, _, _, ho2⟩⟩
    simp only [Tab.reserveEmpty, hr, ddcheck_ok (L.never hone _), ok_bind, hs1, ho1, pure_eq_ok]
  have hall := h
  rcases h with ⟨h1, h2, h3, h4, h5, h6, rfl, hst, m, full, h7⟩ | ⟨c, o, full, hl, hp⟩
  · refine ⟨fun _ => ?_, fun h => absurd rfl h⟩
    unfold Tab.reserve Tab.reserveWith at hres
    rw [hr, ok_bind, if_pos h5] at hres
    exact empty t t' n hr hres
  · obtain ⟨t1, f1, f2⟩ := reserveWith_fold L (Tab.findOrInsert g depth) hl hr hres
    have e1 : t1.tb = r := empty _ t1 _ (reserveBits_pow hr64) f1
    have hinv : Inv g P t1 [] := by
      obtain ⟨full0, ho0⟩ := L.ovf.new P.kw P.vw
      rcases h0 with ⟨rfl, hone⟩ | hlo
      · obtain ⟨t2, g1, g2⟩ := base { Tab.new g P.kw P.vw with bpg := g.rehashBpg } 0 full0 (2 ^ 0) hone (reserveBits_pow (by omega)) rfl rfl
          L.rbpg_pos L.rbpg_le rfl ho0
        rw [f1] at g1
        cases g1
        exact g2
      · obtain ⟨t1', full1, h1, h2, h3, _⟩ := reserveEmpty_ok L
          (t := { Tab.new g P.kw P.vw with bpg := g.rehashBpg }) (n := 2 ^ r) (r := r) rfl rfl L.rbpg_pos L.rbpg_le rfl
          ho0 L.fresh (reserveBits_pow hr64) hlo hhi
        rw [f1] at h1
        cases h1
        exact .inr ⟨_, _, _, h2, by rw [ents_nil]⟩
    obtain ⟨m1, m2⟩ := insAll_tight L (ins_tight L hcl hG depth) (ents (g.hash P.kw) t.tb c o) t1 t' [] hinv (.inl hg)
      (fun e he => ⟨hall.key_lt L (hp.mem_iff.mpr he), hall.val_norm (hp.mem_iff.mpr he)⟩)
      (by simpa using ents_nodup (hl.map_ok L) hl.cok) (fun e he => hX e (hp.mem_iff.mpr (by simpa using he))) f2
    rw [← e1]
    refine ⟨fun h => ?_, fun h => m2 (fun e => h (by rw [e] at hp; exact hp.eq_nil))⟩
    rw [m1 (by rw [h] at hp; exact hp.symm.eq_nil)]

/-- what an inserting call does -/
theorem step_insert {t t' : Tab S O} {op : MapOp} {a : Ans} (hop : OpOK P op)
    (hi : (∃ k v, op = .insert k v) ∨ (∃ k, op = .get k) ∨ ∃ k v, op = .assign k v) (hs : t.step g op = .ok (t', a)) :
    ∃ k v t1 n, k < 2 ^ P.kw ∧ P.normO v = P.norm P.vw v ∧ t.insert g k v = .ok (t1, n) ∧ (t'.tb = t1.tb ∧ t'.bpg = t1.bpg) ∧
      ∀ (tr : Nat → Nat) (m : FMap) x, (m.step tr op).1.get x ≠ none ↔ (x = k ∨ m.get x ≠ none) := by
  have hput : ∀ (m : FMap) (k y x : Nat), (m.put k y).get x ≠ none ↔ (x = k ∨ m.get x ≠ none) := by
    intro m k y x
    simp only [FMap.put]
    by_cases h : x = k <;> simp [h]
  rcases hi with ⟨k, v, rfl⟩ | ⟨k, rfl⟩ | ⟨k, v, rfl⟩
  · simp only [Tab.step] at hs
    obtain ⟨⟨t1, n⟩, h1, hs⟩ := bind_eq_ok hs
    obtain ⟨_, _, hs⟩ := bind_eq_ok hs
    obtain ⟨_, _, hs⟩ := bind_eq_ok hs
    cases hs
    refine ⟨k, v, _, n, hop.1, hop.2, h1, ⟨rfl, rfl⟩, fun tr m x => ?_⟩
    simp only [FMap.step]
    split
    · rename_i y hy
      refine ⟨.inr, ?_⟩
      rintro (rfl | h)
      · rw [hy]; simp
      · exact h
    · exact hput _ _ _ _
  · simp only [Tab.step, Tab.subscript] at hs
    obtain ⟨⟨t1, n⟩, h1, hs⟩ := bind_eq_ok hs
    obtain ⟨_, _, hs⟩ := bind_eq_ok hs
    cases hs
    refine ⟨k, 0, _, n, hop.1, hop.2, h1, ⟨rfl, rfl⟩, fun tr m x => ?_⟩
    simp only [FMap.step]
    split
    · rename_i y hy
      refine ⟨.inr, ?_⟩
      rintro (rfl | h)
      · rw [hy]; simp
      · exact h
    · exact hput _ _ _ _
  · simp only [Tab.step, Tab.subscript] at hs
    obtain ⟨⟨t1, n⟩, h1, hs⟩ := bind_eq_ok hs
    obtain ⟨t2, h2, hs⟩ := bind_eq_ok hs
    have e : t2.tb = t1.tb ∧ t2.bpg = t1.bpg := by
      unfold Tab.writeValue at h2
      split at h2
      · obtain ⟨_, _, h2⟩ := bind_eq_ok h2
        cases h2; exact ⟨rfl, rfl⟩
      · obtain ⟨_, _, h2⟩ := bind_eq_ok h2
        obtain ⟨_, _, h2⟩ := bind_eq_ok h2
        cases h2; exact ⟨rfl, rfl⟩
    cases hs
    refine ⟨k, 0, _, n, hop.1, hop.2.2, h1, e, fun tr m x => ?_⟩
    simp only [FMap.step]
    exact hput _ _ _ _

/-- the calls that change nothing about the number of buckets -/
theorem step_still (L : Laws g P) {t t' : Tab S O} {l : List (Nat × Nat)} (h : Inv g P t l) {op : MapOp} {a : Ans} (hop : OpOK P op)
    (h1 : ∀ k v, op ≠ .insert k v) (h2 : ∀ k, op ≠ .get k) (h3 : ∀ k v, op ≠ .assign k v) (h4 : ∀ n, op ≠ .reserve n) (h5 : op ≠ .clear)
    (hs : t.step g op = .ok (t', a)) : t'.tb = t.tb := by
  cases op with
  | insert k v => exact absurd rfl (h1 k v)
  | get k => exact absurd rfl (h2 k)
  | assign k v => exact absurd rfl (h3 k v)
  | reserve n => exact absurd rfl (h4 n)
  | clear => exact absurd rfl h5
  | find k =>
    simp only [Tab.step] at hs
    obtain ⟨_, _, hs⟩ := bind_eq_ok hs
    obtain ⟨e, _, hs⟩ := bind_eq_ok hs
    cases e with
    | true => cases hs; rfl
    | false =>
      simp only [Bool.false_eq_true, if_false] at hs
      obtain ⟨_, _, hs⟩ := bind_eq_ok hs
      obtain ⟨_, _, hs⟩ := bind_eq_ok hs
      cases hs; rfl
  | count k =>
    simp only [Tab.step] at hs
    obtain ⟨_, _, hs⟩ := bind_eq_ok hs
    cases hs; rfl
  | erase k =>
    simp only [Tab.step] at hs
    rcases h.erase L (k := k) hop with ⟨t1, v, l1, h1, _, _, h4⟩ | ⟨h1, _⟩
    · rw [h1] at hs; cases hs; exact h4
    · rw [h1] at hs; cases hs; rfl
  | size => cases hs; rfl
  | empty => cases hs; rfl
  | shrink =>
    simp only [Tab.step] at hs
    obtain ⟨t1, h1, _, h3⟩ := h.shrink L
    rw [h1] at hs; cases hs; exact h3

/-- What is demanded of a table without overflow table. -/
structure Bitwise (g : Cfg S O) (P : Par S O) : Prop where
  laws : Laws g P
  grow65 : P.grow < 65
  cl : P.cl ≤ 1
  noOv : ∀ o n l full, P.RepO o n l full → l = []
  room : ∀ s d c b, P.Rep s d c → 1 ≤ d.bpg → b < 2 ^ d.tb → (c b).length ≤ P.maxE
  coarse : Coarse (g.hash P.kw) P.kw

theorem Abs.keys_iff {l : List (Nat × Nat)} {m : FMap} (h : Abs l m) (k : Nat) : m.keys k ↔ k ∈ l.map Prod.fst := by
  unfold FMap.keys
  rw [ne_eq, h.none, Classical.not_not]

theorem Inv.keys_lt (L : Laws g P) {t : Tab S O} {l : List (Nat × Nat)} {m : FMap} (h : Inv g P t l) (ha : Abs l m) :
    ∀ k, m.keys k → k < 2 ^ P.kw := by
  intro k hk
  obtain ⟨e, he, rfl⟩ := List.mem_map.mp ((ha.keys_iff k).mp hk)
  exact h.key_lt L he

theorem Inv.tb_lt (L : Laws g P) {t : Tab S O} {l : List (Nat × Nat)} (h : Inv g P t l) : t.tb < 64 := by
  rcases h with ⟨_, _, _, _, h5, _⟩ | ⟨c, o, full, hl, hp⟩
  · omega
  · exact Nat.lt_of_le_of_lt hl.hi L.hi_lt

/-- **one call** -/
theorem step_bits (B : Bitwise g P) {t t' : Tab S O} {l : List (Nat × Nat)} {m : FMap} (h : Inv g P t l) (ha : Abs l m) {op : MapOp} {a : Ans}
    (hop : OpOK P op) (hN : ∀ n, op = .reserve n → 1 ≤ n ∧ n ≤ 2 ^ 63) (hs : t.step g op = .ok (t', a)) :
    BitsStep (g.hash P.kw) P.maxE P.ini (P.norm P.vw) m t.tb op t'.tb := by
  have L := B.laws
  obtain ⟨t1, l1, h1, h2, h3⟩ := Tab.step_ok L B.grow65 h ha op hop
  rw [hs] at h1
  cases h1
  have hini := L.init.2.1
  have hlo := L.lo_pos
  have hpos : ∀ s, 1 ≤ P.start s := fun s => by unfold Par.start; split <;> omega
  have h64 := h2.tb_lt L
  have least : ∀ (x : Nat) (X : Nat → Prop), 1 ≤ x → (∀ k, X k → k < 2 ^ P.kw) → Uncrowded (g.hash P.kw) P.maxE t'.tb X →
      (∀ G, (∀ tb, G ≤ tb → 1 ≤ tb → tb < 64 → Uncrowded (g.hash P.kw) P.maxE tb X) → x ≤ t'.tb ∧ t'.tb ≤ max x G) →
      LeastFit (g.hash P.kw) P.maxE x X t'.tb := by
    intro x X hx hlt hfit hall
    refine ⟨(hall 64 (fun tb h1 _ h3 => by omega)).1, hfit, fun s' hs1 hs2 hf => ?_⟩
    have := (hall s' (fun tb h1 h2 h3 => hf.mono B.coarse hlt (by omega) h1 h3)).2
    omega
  have ins : ((∃ k v, op = .insert k v) ∨ (∃ k, op = .get k) ∨ ∃ k v, op = .assign k v) →
      LeastFit (g.hash P.kw) P.maxE (P.start t.tb) (m.step (P.norm P.vw) op).1.keys t'.tb := by
    intro hi
    obtain ⟨k, v, t1, n, hk, hv, hin, ⟨htb, _⟩, hkeys⟩ := step_insert (P := P) hop hi hs
    have hall : ∀ G, (∀ tb, G ≤ tb → 1 ≤ tb → tb < 64 → Uncrowded (g.hash P.kw) P.maxE tb (m.step (P.norm P.vw) op).1.keys) →
        P.start t.tb ≤ t'.tb ∧ t'.tb ≤ max (P.start t.tb) G := by
      intro G hG
      rw [htb]
      exact ins_tight L B.cl hG depth t l k v t1 n h (fun e he => (hkeys _ _ _).mpr (.inr ((ha.keys_iff _).mpr (List.mem_map.mpr ⟨e, he, rfl⟩))))
        ((hkeys _ _ _).mpr (.inl rfl)) hk hv (.inl B.grow65) hin
    have hge := (hall 64 (fun tb h1 _ h3 => by omega)).1
    have := hpos t.tb
    exact least _ _ this (h2.keys_lt L h3) (h2.fits L B.noOv B.room h3 (by omega)) hall
  cases op with
  | insert k v => exact ins (.inl ⟨k, v, rfl⟩)
  | get k => exact ins (.inr (.inl ⟨k, rfl⟩))
  | assign k v => exact ins (.inr (.inr ⟨k, v, rfl⟩))
  | reserve n =>
    obtain ⟨n1, n2⟩ := hN n rfl
    have hc := reserveBits_ceilLog n1 n2
    obtain ⟨r, hr, h0, hhi⟩ := hop
    have e : r = ceilLog n := by rw [hr] at hc; exact Except.ok.inj hc
    subst e
    simp only [Tab.step] at hs
    obtain ⟨t2, hres, hs⟩ := bind_eq_ok hs
    cases hs
    have hall := fun G hG => Inv.reserve_tight L B.grow65 B.cl (X := m.keys) (G := G) hG h
      (fun e he => (ha.keys_iff _).mpr (List.mem_map.mpr ⟨e, he, rfl⟩)) hr h0 hhi hres
    refine ⟨ceilLog n, log2Up_ceilLog n1, fun hm => ?_, fun hm => ?_⟩
    · exact (hall 64 (fun tb h1 _ h3 => by omega)).1 (List.eq_nil_of_length_eq_zero (by rw [← ha.size]; exact hm))
    · have hne : l ≠ [] := fun e => hm (by rw [ha.size, e]; rfl)
      have hge := ((hall 64 (fun tb h1 _ h3 => by omega)).2 hne).1
      have := hpos (ceilLog n)
      have hsame : (m.step (P.norm P.vw) (.reserve n)).1 = m := rfl
      rw [hsame] at h3
      exact least (P.start (ceilLog n)) m.keys this (h.keys_lt L ha) (h2.fits L B.noOv B.room h3 (by omega)) (fun G hG => (hall G hG).2 hne)
  | clear => cases hs; rfl
  | _ => exact step_still L h hop (by simp) (by simp) (by simp) (by simp) (by simp) hs

/-- **a history** -/
theorem run_bits (B : Bitwise g P) : ∀ (ops : List MapOp) {t t' : Tab S O} {l : List (Nat × Nat)} {m : FMap} {as : List Ans},
    Inv g P t l → Abs l m → (∀ op ∈ ops, OpOK P op) → (∀ n, .reserve n ∈ ops → 1 ≤ n ∧ n ≤ 2 ^ 63) → Tab.run g t ops = .ok (t', as) →
    BitsAfter (g.hash P.kw) P.maxE P.ini (P.norm P.vw) m t.tb ops t'.tb := by
  intro ops
  induction ops with
  | nil => intro t t' l m as _ _ _ _ hs; cases hs; exact rfl
  | cons op ops ih =>
    intro t t' l m as h ha hops hN hs
    obtain ⟨t1, l1, h1, h2, h3⟩ := Tab.step_ok B.laws B.grow65 h ha op (hops op (by simp))
    have h4 := step_bits B h ha (hops op (by simp)) (fun n hn => hN n (by simp [hn])) h1
    simp only [Tab.run, h1, ok_bind] at hs
    obtain ⟨⟨t2, as2⟩, h5, hs⟩ := bind_eq_ok hs
    cases hs
    exact ⟨t1.tb, h4, ih h2 h3 (fun op' hop' => hops op' (by simp [hop'])) (fun n hn => hN n (by simp [hn])) h5⟩

/-- **a table with an overflow table never has more buckets**: one call -/
theorem step_bits_ov {S' O' : Type} {g' : Cfg S' O'} {P' : Par S' O'} (B : Bitwise g P) (L' : Laws g' P') (hg' : P'.grow < 65) (hcl' : P'.cl ≤ 1)
    (hH : g'.hash P'.kw = g.hash P.kw) (hE : P'.maxE = P.maxE) (hI : P'.ini = P.ini)
    {t t1 : Tab S O} {l : List (Nat × Nat)} {m : FMap} (h : Inv g P t l) (ha : Abs l m) {op : MapOp} {a : Ans} (hop : OpOK P op)
    (hs : t.step g op = .ok (t1, a)) {t' t1' : Tab S' O'} {l' : List (Nat × Nat)} (h' : Inv g' P' t' l') (ha' : Abs l' m) {a' : Ans}
    (hop' : OpOK P' op) (hN : ∀ n, op = .reserve n → 1 ≤ n ∧ n ≤ 2 ^ 63) (hs' : t'.step g' op = .ok (t1', a'))
    (hle : t'.tb ≤ t.tb ∧ (t'.tb = 0 ↔ t.tb = 0)) : t1'.tb ≤ t1.tb ∧ (t1'.tb = 0 ↔ t1.tb = 0) := by
  have L := B.laws
  have hbits := step_bits B h ha hop hN hs
  obtain ⟨t2, l2, h1, h2, h3⟩ := Tab.step_ok L B.grow65 h ha op hop
  rw [hs] at h1
  cases h1
  have hini := L.init.2.1
  have hlo := L.lo_pos
  have hpos : ∀ s, 1 ≤ P.start s := fun s => by unfold Par.start; split <;> omega
  have est : ∀ s, P'.start s = P.start s := fun s => by unfold Par.start; rw [hI]
  have ins : ((∃ k v, op = .insert k v) ∨ (∃ k, op = .get k) ∨ ∃ k v, op = .assign k v) →
      LeastFit (g.hash P.kw) P.maxE (P.start t.tb) (m.step (P.norm P.vw) op).1.keys t1.tb → t1'.tb ≤ t1.tb ∧ (t1'.tb = 0 ↔ t1.tb = 0) := by
    intro hi hfit
    have h0 := hpos t.tb
    have hge := hfit.ge
    obtain ⟨k, v, t3, n, hk, hv, hin, ⟨htb, _⟩, hkeys⟩ := step_insert (P := P') hop' hi hs'
    have := ins_tight L' hcl' (X := (m.step (P.norm P.vw) op).1.keys) (G := t1.tb) (by
      rw [hH, hE]
      exact fun tb h4 h5 h6 => hfit.fits.mono B.coarse (h2.keys_lt L h3) (by omega) h4 h6) depth t' l' k v t3 n h'
      (fun e he => (hkeys _ _ _).mpr (.inr ((ha'.keys_iff _).mpr (List.mem_map.mpr ⟨e, he, rfl⟩)))) ((hkeys _ _ _).mpr (.inl rfl)) hk hv (.inl hg') hin
    rw [← htb, est] at this
    have h5 := hpos t'.tb
    have h6 : P.start t'.tb ≤ P.start t.tb := by unfold Par.start; split <;> split <;> omega
    omega
  cases op with
  | insert k v => exact ins (.inl ⟨k, v, rfl⟩) hbits
  | get k => exact ins (.inr (.inl ⟨k, rfl⟩)) hbits
  | assign k v => exact ins (.inr (.inr ⟨k, v, rfl⟩)) hbits
  | reserve n =>
    obtain ⟨n1, n2⟩ := hN n rfl
    have hc := reserveBits_ceilLog n1 n2
    obtain ⟨r, hr, b1, b2⟩ := hbits
    have e := hr.unique (log2Up_ceilLog n1)
    subst e
    obtain ⟨r', hr', h0, hhi⟩ := hop'
    have e : r' = ceilLog n := by rw [hr'] at hc; exact Except.ok.inj hc
    subst e
    simp only [Tab.step] at hs'
    obtain ⟨t3, hres, hs'⟩ := bind_eq_ok hs'
    cases hs'
    have hsame : (m.step (P.norm P.vw) (.reserve n)).1 = m := rfl
    rw [hsame] at h3
    by_cases hm : m.size = 0
    · have e1 := b1 hm
      have := (Inv.reserve_tight L' hg' hcl' (X := m.keys) (G := 64) (fun tb h1 _ h3 => by omega) h'
        (fun e he => (ha'.keys_iff _).mpr (List.mem_map.mpr ⟨e, he, rfl⟩)) hr' h0 hhi hres).1
        (List.eq_nil_of_length_eq_zero (by rw [← ha'.size]; exact hm))
      omega
    · have e1 := b2 hm
      have h5 := hpos (ceilLog n)
      have hge : P.start (ceilLog n) ≤ t1.tb := e1.ge
      have := (Inv.reserve_tight L' hg' hcl' (X := m.keys) (G := t1.tb) (by
        rw [hH, hE]
        exact fun tb h4 h5 h6 => e1.fits.mono B.coarse (h.keys_lt L ha) (by omega) h4 h6) h'
        (fun e he => (ha'.keys_iff _).mpr (List.mem_map.mpr ⟨e, he, rfl⟩)) hr' h0 hhi hres).2
        (fun e => hm (by rw [ha'.size, e]; rfl))
      rw [est] at this
      omega
  | clear => cases hs; cases hs'; exact ⟨Nat.le_refl _, Iff.rfl⟩
  | _ =>
    rw [step_still L h hop (by simp) (by simp) (by simp) (by simp) (by simp) hs,
      step_still L' h' hop' (by simp) (by simp) (by simp) (by simp) (by simp) hs']
    exact hle

/-- a history -/
theorem run_bits_ov {S' O' : Type} {g' : Cfg S' O'} {P' : Par S' O'} (B : Bitwise g P) (L' : Laws g' P') (hg' : P'.grow < 65) (hcl' : P'.cl ≤ 1)
    (hH : g'.hash P'.kw = g.hash P.kw) (hE : P'.maxE = P.maxE) (hI : P'.ini = P.ini) (htr : P'.norm P'.vw = P.norm P.vw) :
    ∀ (ops : List MapOp) {t t1 : Tab S O} {l : List (Nat × Nat)} {m : FMap} {as : List Ans} {t' t1' : Tab S' O'} {l' : List (Nat × Nat)}
    {as' : List Ans}, Inv g P t l → Abs l m → (∀ op ∈ ops, OpOK P op) → Tab.run g t ops = .ok (t1, as) → Inv g' P' t' l' → Abs l' m →
    (∀ op ∈ ops, OpOK P' op) → Tab.run g' t' ops = .ok (t1', as') → (∀ n, .reserve n ∈ ops → 1 ≤ n ∧ n ≤ 2 ^ 63) →
    (t'.tb ≤ t.tb ∧ (t'.tb = 0 ↔ t.tb = 0)) → t1'.tb ≤ t1.tb ∧ (t1'.tb = 0 ↔ t1.tb = 0) := by
  intro ops
  induction ops with
  | nil => intro t t1 l m as t' t1' l' as' _ _ _ hs _ _ _ hs' _ hle; cases hs; cases hs'; exact hle
  | cons op ops ih =>
    intro t t1 l m as t' t1' l' as' h ha hops hs h' ha' hops' hs' hN hle
    obtain ⟨t2, l2, g1, g2, g3⟩ := Tab.step_ok B.laws B.grow65 h ha op (hops op (by simp))
    obtain ⟨t2', l2', g1', g2', g3'⟩ := Tab.step_ok L' hg' h' ha' op (hops' op (by simp))
    rw [htr] at g3'
    have key := step_bits_ov B L' hg' hcl' hH hE hI h ha (hops op (by simp)) g1 h' ha' (hops' op (by simp)) (fun n hn => hN n (by simp [hn])) g1' hle
    simp only [Tab.run, g1, ok_bind] at hs
    obtain ⟨⟨t3, as3⟩, h5, hs⟩ := bind_eq_ok hs
    cases hs
    simp only [Tab.run, g1', ok_bind] at hs'
    obtain ⟨⟨t3', as3'⟩, h5', hs'⟩ := bind_eq_ok hs'
    cases hs'
    exact ih g2 g3 (fun op' hop' => hops op' (by simp [hop'])) h5 g2' g3' (fun op' hop' => hops' op' (by simp [hop'])) h5'
      (fun n hn => hN n (by simp [hn])) key

end SC
