import Verif.Table.Run
/-! # Insertions that fail in a debug build -/
namespace SC

variable {S O : Type} {g : Cfg S O} {P : Par S O}

/-- A new key with a value the store rejects: `find_or_insert` fails in the same way, whether or not the table has to be enlarged
before. -/
theorem ins_reject (L : Laws g P) (hcap : ∀ o, ¬ g.ov.size o < g.ov.capacity o) {v : Nat} {e : Fault}
    (hpush : ∀ s d cont b q, GoodDim P.W d → P.Rep s d cont → b < 2 ^ d.tb → q < 2 ^ d.qw → g.ops.full s d b = .ok false → d.vw = P.vw →
      g.ops.push s d b q v = .error e) :
    ∀ (f : Nat) (t : Tab S O) (l : List (Nat × Nat)) (k : Nat), Inv g P t l →
    k < 2 ^ P.kw → FuelOK P f t → k ∉ l.map Prod.fst → Tab.findOrInsert g f t k v = .error e := by
  intro f
  induction f with
  | zero => intro t l k _ _ hf; rcases hf with hf | ⟨_, hf⟩ <;> omega
  | succ f ih =>
    intro t l k h hk hf hnm
    obtain ⟨t1, c, o, full, ht1, hl, hp, hf1⟩ : ∃ t1 c o full,
        (if t.tb = 0 then t.reserveEmpty g (min (t.kw - 1) g.initBuckets) else .ok t : Res (Tab S O)) = .ok t1 ∧
        Live g P t1 c o full ∧ l.Perm (ents (g.hash P.kw) t1.tb c o) ∧ P.grow - t1.tb < f + 1 := by
      rcases h with ⟨h1, h2, h3, h4, h5, h6, rfl, hst, n, full, h7⟩ | ⟨c, o, full, hl, hp⟩
      · obtain ⟨hi1, hi2, hi3⟩ := L.init
        rw [← h1] at hi1
        obtain ⟨t1, full1, g1, g2, g3, _⟩ := reserveEmpty_ok L h1 h2 h3 h4 h6 h7 hst hi1 hi2 hi3
        refine ⟨t1, _, _, full1, by rw [if_pos h5]; exact g1, g2, by rw [ents_nil], ?_⟩
        rcases hf with hf | ⟨hf, _⟩ <;> omega
      · have := hl.tb_pos L
        refine ⟨t, c, o, full, by rw [if_neg (by omega)], hl, hp, ?_⟩
        rcases hf with hf | ⟨_, hf⟩ <;> omega
    have hkeys : ∀ x, x ∈ l.map Prod.fst ↔ x ∈ (ents (g.hash P.kw) t1.tb c o).map Prod.fst :=
      fun x => (hp.map Prod.fst).mem_iff
    obtain ⟨q, b, hm, hb⟩ := hl.mapk L hk
    obtain ⟨pos, hpos, hcase⟩ := hl.locate L hk hm
    have hq := (invKey_of_map (hl.map_ok L) hk hm).2.2.1
    have hcons := L.ovf.consult _ _ _ _ b hl.orep hb
    unfold Tab.findOrInsert
    have hkw1 : 1 < t.kw := by rw [h.kw_eq]; exact L.kw_gt
    simp only [ddcheck_ok hkw1, ht1, ok_bind, hl.hash, hm, hl.checkMap L hk hm, hpos]
    rcases hcase with ⟨rfl, hq'⟩ | ⟨hne, x, hloc⟩
    rotate_left
    · exact absurd ((hkeys k).mpr (List.mem_map.mpr ⟨_, (hl.loc_mem L hloc).1, rfl⟩)) hnm
    simp only [ne_eq, not_true_eq_false, if_false, hcons, ok_bind]
    obtain ⟨p, hpp, hpc⟩ := hl.ofind L k
    have hfirst : (if full b = true then g.ov.find t1.ovf k else .ok NPOS : Res Nat) = .ok NPOS := by
      split
      · rcases hpc with ⟨rfl, _⟩ | ⟨hne, x, hx⟩
        · exact hpp
        · have hloc : Loc g P t1 c o ⟨t1.bucketCount, p⟩ k x := .inr ⟨p, by rw [hl.bc L], hx⟩
          exact absurd ((hkeys k).mpr (List.mem_map.mpr ⟨_, (hl.loc_mem L hloc).1, rfl⟩)) hnm
      · rfl
    rw [hfirst]
    simp only [ok_bind, not_true_eq_false, if_false]
    obtain ⟨r, hr, _⟩ := L.store.full _ _ _ _ (hl.good L) hl.rep hb
    rw [hr]
    simp only [ok_bind]
    cases r with
    | false =>
      have hqd : q < 2 ^ (t1.dim g).qw := by
        show q < 2 ^ (t1.hash g).remainderWidth t1.tb
        rw [hl.hash]; exact hq
      have hsz := L.store.size _ _ _ _ (hl.good L) hl.rep hb
      simp only [Bool.false_eq_true, if_false, hsz, ok_bind, hpush _ _ _ _ _ (hl.good L) hl.rep hb hqd hr hl.tvw, error_bind]
    | true =>
      have hgrow : t1.tb < P.grow := by
        rcases Nat.lt_or_ge t1.tb P.grow with h | h
        · exact h
        · rw [hl.not_full L h hk hm hq'] at hr; exact absurd hr (by simp)
      simp only [if_true, if_neg (hcap t1.ovf), ok_bind, not_true_eq_false, if_false]
      have hsh : shl64 1 (t1.tb + 1) = .ok (2 ^ (t1.tb + 1)) := by
        have hlt : t1.tb + 1 < 64 := by have := L.grow_le; have := L.hi_lt; omega
        unfold shl64
        rw [if_pos hlt, Nat.shiftLeft_eq, Nat.one_mul]
        exact congrArg _ (Nat.mod_eq_of_lt (Nat.pow_lt_pow_right (by omega) hlt))
      rw [hsh]
      simp only [ok_bind]
      have hinv' : Inv g P t1 l := .inr ⟨c, o, full, hl, hp⟩
      obtain ⟨t2, g1, g2, g3, g4⟩ := reserveWith_ok L L (Tab.findOrInsert g f) (ins_ok L f) hl (n := 2 ^ (t1.tb + 1))
        (r := t1.tb + 1) (nkw := 0) (reserveBits_pow (by have := L.grow_le; have := L.hi_lt; omega))
        (by have := hl.lo; omega) (by have := L.grow_le; omega) (by simp) rfl (by omega)
        (fun e he => ⟨hinv'.key_lt L (hp.mem_iff.mpr he), hinv'.val_norm (hp.mem_iff.mpr he)⟩)
      simp only [g1, ok_bind]
      exact ih t2 l k (g2.perm hp) hk (.inr ⟨by omega, by omega⟩) hnm

/-- A key the hash function rejects -/
theorem ins_bad_key (L : Laws g P) {t : Tab S O} {l : List (Nat × Nat)} (h : Inv g P t l) {x : Nat} {e : Fault}
    (hx : ∀ tb, (g.hash P.kw).map x tb = .error e) (f v : Nat) : Tab.findOrInsert g (f + 1) t x v = .error e := by
  have hkw := L.kw_gt
  have main : ∀ t1 : Tab S O, t1.kw = P.kw → (if t.tb = 0 then t.reserveEmpty g (min (t.kw - 1) g.initBuckets)
      else .ok t : Res _) = .ok t1 → t.kw = P.kw → Tab.findOrInsert g (f + 1) t x v = .error e := by
    intro t1 a1 a2 a3
    unfold Tab.findOrInsert
    rw [ddcheck_ok (show 1 < t.kw by omega), ok_bind, a2, ok_bind]
    simp only [Tab.hash, a1, hx, error_bind]
  rcases h with ⟨b1, b2, b3, b4, b5, b6, rfl, hst, n, full, b7⟩ | ⟨c, o, full, hl, hp⟩
  · obtain ⟨hi1, hi2, hi3⟩ := L.init
    rw [← b1] at hi1
    obtain ⟨t1, full1, g1, g2, g3, _⟩ := reserveEmpty_ok L b1 b2 b3 b4 b6 b7 hst hi1 hi2 hi3
    exact main t1 g2.tkw (by rw [if_pos b5]; exact g1) b1
  · have := hl.tb_pos L
    exact main t hl.tkw (by rw [if_neg (by omega)]) hl.tkw

end SC
