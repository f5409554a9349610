import Verif.Group.DebugBorder
/-!
# The tests of a group in a debug build
-/
namespace SC

/-- one of the two arrays of a group holds `xs`; `sp` tells whether it has a spare word -/
structure BitsRep (sp : Bool) (x : CoreDbg) (w : Nat) (xs : List Nat) : Prop where
  data : CoreRep sp x.data w xs
  ok : CoreOK x w xs

/-- the group holds the buckets `cs`, and so do its copies -/
structure GroupDbgRep (sp : Bool) (x : GroupDbg) (bpg qw vw : Nat) (cs : Cont) : Prop where
  ends : EndsRep x bpg cs
  keys : BitsRep sp x.keys qw ((flat cs bpg).map Prod.fst)
  vals : BitsRep sp x.vals vw ((flat cs bpg).map Prod.snd)

theorem CoreRep.relax {sp : Bool} {b : VarB} {w : Nat} {xs : List Nat} (h : CoreRep true b w xs) : CoreRep sp b w xs := by
  cases sp
  · exact h.weaken
  · exact h

variable {c : GrpCfg} {sp : Bool} {x : GroupDbg} {bpg qw vw : Nat} {cs : Cont}

theorem flat_nil (n : Nat) : flat (fun _ => []) n = [] := by
  induction n with
  | zero => rfl
  | succ n ih => simp [flat, ih]

/-- the state of a group without entries that has not been initialized -/
structure GroupDbg.Cleared (x : GroupDbg) : Prop where
  size : x.size = 0
  kdata : x.keys.data = Option.none
  kplain : x.keys.plain = Option.none
  vdata : x.vals.data = Option.none
  vplain : x.vals.plain = Option.none
  border : x.border = Option.none
  arr : x.arr = []

theorem cleared_fresh (c : GrpCfg) : (GroupDbg.fresh c).Cleared := ⟨rfl, rfl, rfl, rfl, rfl, rfl, rfl⟩

theorem cleared_clear (x : GroupDbg) : x.clear.Cleared := ⟨rfl, rfl, rfl, rfl, rfl, rfl, rfl⟩

theorem GroupDbgRep.init (h : x.Cleared) (hb : bpg ≤ 255) (qw vw : Nat) :
    ∃ y, x.init c bpg qw vw = .ok y ∧ GroupDbgRep sp y bpg qw vw (fun _ => []) := by
  obtain ⟨ks, k1, k2, k3⟩ := CoreOK.init h.kplain h.kdata qw
  obtain ⟨vs, v1, v2, v3⟩ := CoreOK.init h.vplain h.vdata vw
  obtain ⟨b, b1, b2, b3⟩ := BorderRep.init_tail c bpg
  have b3 : b.Tail (0 + 1 + bpg) := by rw [show 0 + 1 + bpg = bpg + 1 by omega]; exact b3
  have hl : b.len = ceilDiv (bpg + 1) 64 := by rw [b2.len]; congr 1; omega
  have hn := b2.ones b3
  rw [hl] at hn
  refine ⟨⟨0, ks, vs, some b, ceilDiv (bpg + 1) 64, x.arr.take bpg ++ List.replicate (bpg - x.arr.length) 0, bpg⟩, ?_,
    ⟨⟨?_, ?_, fun _ _ => rfl, ⟨b, rfl, ?_, ?_⟩, ?_, ?_, rfl⟩, ⟨?_, ?_⟩, ⟨?_, ?_⟩⟩⟩
  · unfold GroupDbg.init
    simp only [h.border, Option.isNone_none, ddcheck_ok, k1, v1, ddcheck_ok hb, b1, hn, ok_bind, pure_eq_ok]
  · rw [flat_nil]; rfl
  · rw [flat_nil]; exact Nat.two_pow_pos 32
  · rw [flat_nil]; exact b2
  · rw [flat_nil]; exact b3
  · rw [flat_nil, show ([] : List (Nat × Nat)).length + 1 + bpg = bpg + 1 by rw [List.length_nil]; omega]
  · rw [h.arr]
    apply List.ext_getElem
    · simp
    · intro i _ _; simp [flat_nil]
  · rw [flat_nil]; exact k2
  · rw [flat_nil]; exact k3
  · rw [flat_nil]; exact v2
  · rw [flat_nil]; exact v3

theorem EndsRep.index (h : EndsRep x bpg cs) (hb : bpg ≤ 255) {g : Nat} (hg : g < bpg) {i : Nat} (hi : i < (cs g).length) :
    sub64 ((flat cs g).length + g + i) g = (flat cs g).length + i := by
  have h1 := flat_le (cs := cs) (show g + 1 ≤ bpg by omega)
  have h2 := h.lt
  have h3 := flat_succ (cs := cs) (g := g)
  rw [sub64_eq (by omega) (by rw [W64_eq]; omega)]; omega

theorem EndsRep.readKey (h : EndsRep x bpg cs) (hk : BitsRep sp x.keys qw ((flat cs bpg).map Prod.fst)) (hb : bpg ≤ 255) (hqw : 1 ≤ qw)
    {g : Nat} (hg : g < bpg) {i : Nat} (hi : i < (cs g).length) : x.readKey c g i qw = .ok (cs g)[i].1 := by
  obtain ⟨h1, h2⟩ := flat_get hg hi
  unfold GroupDbg.readKey
  rw [ddcheck_ok (by rw [h.gs]; exact hg), ok_bind, h.start hb hg, ok_bind, h.index hb hg hi,
    hk.ok.read hqw hk.data rfl (by simpa using h1) rfl]
  simp [h2]

theorem GroupDbgRep.readKey (h : GroupDbgRep sp x bpg qw vw cs) (hb : bpg ≤ 255) (hqw : 1 ≤ qw) {g : Nat} (hg : g < bpg) {i : Nat}
    (hi : i < (cs g).length) : x.readKey c g i qw = .ok (cs g)[i].1 := h.ends.readKey h.keys hb hqw hg hi

theorem GroupDbgRep.readValue (h : GroupDbgRep sp x bpg qw vw cs) (hb : bpg ≤ 255) (hvw : 1 ≤ vw) {g : Nat} (hg : g < bpg) {i : Nat}
    (hi : i < (cs g).length) : x.readValue c g i vw = .ok (cs g)[i].2 := by
  obtain ⟨h1, h2⟩ := flat_get hg hi
  unfold GroupDbg.readValue
  rw [ddcheck_ok (by rw [h.ends.gs]; exact hg), ok_bind, h.ends.start hb hg, ok_bind, h.ends.index hb hg hi,
    h.vals.ok.read hvw h.vals.data rfl (by simpa using h1) rfl]
  simp [h2]

theorem GroupDbgRep.checkPos (h : GroupDbgRep sp x bpg qw vw cs) (hb : bpg ≤ 255) {g : Nat} (hg : g < bpg) {i : Nat}
    (hi : i < (cs g).length) : x.checkPos c g i = .ok () := by
  have h1 := flat_le (cs := cs) (show g + 1 ≤ bpg by omega)
  have h2 := h.ends.lt
  have h3 := flat_succ (cs := cs) (g := g)
  unfold GroupDbg.checkPos
  rw [ddcheck_ok (by rw [h.ends.gs]; exact hg), ok_bind, h.ends.start hb hg, ok_bind, h.ends.pos hb hg, ok_bind,
    ddcheck_ok (by rw [sub64_eq (by omega) (by rw [W64_eq]; omega)]; omega)]

theorem GroupDbgRep.find (h : GroupDbgRep sp x bpg qw vw cs) (hb : bpg ≤ 255) (hqw : 1 ≤ qw) (hqw2 : qw ≤ 64) {g : Nat}
    (hg : g < bpg) (q : Nat) : x.find c g q qw = .ok (posOf ((cs g).map Prod.fst) q) := by
  have h1 := flat_le (cs := cs) (show g + 1 ≤ bpg by omega)
  have h2 := h.ends.lt
  have h3 := flat_succ (cs := cs) (g := g)
  unfold GroupDbg.find
  rw [ddcheck_ok (by rw [h.ends.gs]; exact hg), ok_bind, h.ends.start hb hg, ok_bind, h.ends.pos hb hg, ok_bind,
    ddcheck_ok (by omega), ok_bind]
  by_cases h0 : (flat cs (g + 1)).length + g = (flat cs g).length + g
  · rw [if_pos h0, pure_eq_ok]
    have : cs g = [] := List.eq_nil_of_length_eq_zero (by omega)
    rw [this]; rfl
  · rw [if_neg h0, sub64_eq (by omega) (by rw [W64_eq]; omega), sub64_eq (by omega) (by rw [W64_eq]; omega),
      Nat.add_sub_cancel, Nat.add_sub_cancel, h.keys.ok.find hqw hqw2 h.keys.data (by omega) (by simpa using h1), ok_bind, pure_eq_ok]
    have hs : (((flat cs bpg).map Prod.fst).drop (flat cs g).length).take ((flat cs (g + 1)).length - (flat cs g).length) =
        (cs g).map Prod.fst := by
      rw [← List.map_drop, ← List.map_take, h3, Nat.add_sub_cancel_left, flat_slice hg]
    rw [hs]
    unfold posOf
    congr 1
    by_cases hm : q ∈ (cs g).map Prod.fst
    · have := List.idxOf_lt_length_of_mem hm
      rw [List.length_map] at this
      have hN : NPOS = 18446744073709551615 := rfl
      rw [if_pos hm, if_pos hm, if_neg (by omega), sub64_eq (by omega) (by rw [W64_eq]; omega)]
      omega
    · rw [if_neg hm, if_neg hm, if_pos rfl]

/-- the common part of the two lemmas about `push_back`: the value is inserted or not -/
theorem GroupDbgRep.push_core (h : GroupDbgRep sp x bpg qw vw cs) (hb : bpg ≤ 255) (hqw : 1 ≤ qw) {g : Nat} (hg : g < bpg)
    (hlt : (flat cs bpg).length + 1 < 2 ^ 32) {q : Nat} (hq : q < 2 ^ qw) (v : Nat) :
    ∃ ks, BitsRep sp ks qw ((flat (upd cs g (cs g ++ [(q, v)])) bpg).map Prod.fst) ∧
      ∀ vs, ∃ y, y.keys = ks ∧ y.vals = vs ∧ EndsRep y bpg (upd cs g (cs g ++ [(q, v)])) ∧
        (x.vals.insert c (flat cs (g + 1)).length v vw ((flat cs bpg).map Prod.snd).length = .ok vs →
          x.push c bpg g q qw v vw = .ok y) ∧
        (x.vals.insert c (flat cs (g + 1)).length v vw ((flat cs bpg).map Prod.snd).length = .error .exc →
          x.push c bpg g q qw v vw = .error .exc) := by
  have h1 := flat_le (cs := cs) (show g + 1 ≤ bpg by omega)
  have h2 := h.ends.lt
  have hs : sub64 ((flat cs (g + 1)).length + g) g = (flat cs (g + 1)).length := by
    rw [sub64_eq (by omega) (by rw [W64_eq]; omega)]; omega
  obtain ⟨ks, k1, k2, k3⟩ := h.keys.ok.insert (c := c) hqw h.keys.data (idx := (flat cs (g + 1)).length) (by simpa using h1) (by rw [List.length_map]; omega) hq
  rw [List.length_map] at k1
  have hl := flat_push (cs := cs) hg (q, v)
  refine ⟨ks, by rw [hl, map_insertIdx]; exact ⟨k2.relax, k3⟩, fun vs => ?_⟩
  obtain ⟨y, y1, y2, y3, y4⟩ := h.ends.push (c := c) hb hg hlt (q, v) ks vs
  refine ⟨y, y2, y3, y4, fun hv => ?_, fun hv => ?_⟩
  · rw [List.length_map] at hv
    unfold GroupDbg.push
    rw [ddcheck_ok (by rw [h.ends.size]; omega), ok_bind, h.ends.pos hb hg, ok_bind, hs, h.ends.size, k1, ok_bind, hv, ok_bind]
    rw [h.ends.size] at y1
    exact y1
  · rw [List.length_map] at hv
    unfold GroupDbg.push
    rw [ddcheck_ok (by rw [h.ends.size]; omega), ok_bind, h.ends.pos hb hg, ok_bind, hs, h.ends.size, k1, ok_bind, hv, error_bind]

theorem GroupDbgRep.push (h : GroupDbgRep sp x bpg qw vw cs) (hb : bpg ≤ 255) (hqw : 1 ≤ qw) (hvw : 1 ≤ vw) {g : Nat}
    (hg : g < bpg) (hlt : (flat cs bpg).length + 1 < 2 ^ 32) {q v : Nat} (hq : q < 2 ^ qw) (hv : v < 2 ^ vw) :
    ∃ y, x.push c bpg g q qw v vw = .ok y ∧ GroupDbgRep sp y bpg qw vw (upd cs g (cs g ++ [(q, v)])) := by
  have h1 := flat_le (cs := cs) (show g + 1 ≤ bpg by omega)
  obtain ⟨ks, k1, k2⟩ := h.push_core (c := c) hb hqw hg hlt hq v
  obtain ⟨vs, v1, v2, v3⟩ := h.vals.ok.insert (c := c) hvw h.vals.data (idx := (flat cs (g + 1)).length) (by simpa using h1)
    (by rw [List.length_map]; omega) hv
  obtain ⟨y, y1, y2, y3, y4, _⟩ := k2 vs
  refine ⟨y, y4 v1, y3, by rw [y1]; exact k1, ?_⟩
  rw [y2, flat_push (cs := cs) hg (q, v), map_insertIdx]
  exact ⟨v2.relax, v3⟩

/-- a value that does not fit is noticed by `push_back` or by the next access to it -/
theorem GroupDbgRep.push_wide (h : GroupDbgRep sp x bpg qw vw cs) (hb : bpg ≤ 255) (hqw : 1 ≤ qw) (hvw : 1 ≤ vw) {g : Nat}
    (hg : g < bpg) (hlt : (flat cs bpg).length + 1 < 2 ^ 32) {q v : Nat} (hq : q < 2 ^ qw) (hv : 2 ^ vw ≤ v) :
    x.push c bpg g q qw v vw = .error .exc ∨ ∃ y, x.push c bpg g q qw v vw = .ok y ∧ EndsRep y bpg (upd cs g (cs g ++ [(q, v)])) ∧
      BitsRep sp y.keys qw ((flat (upd cs g (cs g ++ [(q, v)])) bpg).map Prod.fst) ∧
      y.readValue c g (cs g).length vw = .error .exc := by
  have h1 := flat_le (cs := cs) (show g + 1 ≤ bpg by omega)
  obtain ⟨ks, k1, k2⟩ := h.push_core (c := c) hb hqw hg hlt hq v
  rcases h.vals.ok.insert_wide (c := c) hvw h.vals.data (idx := (flat cs (g + 1)).length) (by simpa using h1)
    (by rw [List.length_map]; omega) hv with
    hv1 | ⟨hidx, vs, v1, v2, v3⟩
  · obtain ⟨y, _, _, _, _, y5⟩ := k2 x.vals
    exact .inl (y5 hv1)
  · obtain ⟨y, y1, y2, y3, y4, _⟩ := k2 vs
    refine .inr ⟨y, y4 v1, y3, by rw [y1]; exact k1, ?_⟩
    rw [List.length_map] at hidx
    have hi : (cs g).length < (upd cs g (cs g ++ [(q, v)]) g).length := by rw [upd_same]; simp
    have hfg : (flat (upd cs g (cs g ++ [(q, v)])) g).length = (flat cs g).length := by
      rw [flat_congr (cs' := cs)]
      intro i hi; exact upd_other _ _ (by omega)
    have hsu := flat_succ (cs := cs) (g := g)
    have e1 := List.length_insertIdx_of_le_length (as := (flat cs bpg).map Prod.snd) (i := (flat cs (g + 1)).length) (by simpa using h1) v
    have e2 := List.length_insertIdx_of_le_length (as := (flat cs bpg).map Prod.snd) (i := (flat cs (g + 1)).length) (by simpa using h1) (v % 2 ^ vw)
    rw [List.length_map] at e1 e2
    have hm : v % 2 ^ vw < 2 ^ vw := Nat.mod_lt _ (Nat.two_pow_pos _)
    unfold GroupDbg.readValue
    rw [ddcheck_ok (by rw [y3.gs]; exact hg), ok_bind, y3.start hb hg, ok_bind, y3.index hb hg hi, hfg, ← hsu, y2]
    refine v3.read_bad hvw v2 (by omega) (by omega) ?_
    rw [List.getElem_insertIdx_self, List.getElem_insertIdx_self]
    omega

theorem GroupDbgRep.erase (h : GroupDbgRep sp x bpg qw vw cs) (hb : bpg ≤ 255) (hqw : 1 ≤ qw) (hvw : 1 ≤ vw)
    (hs : c.strict = true → sp = true) {g : Nat} (hg : g < bpg) {i : Nat} (hi : i < (cs g).length) :
    ∃ y, x.erase c bpg g i qw vw = .ok y ∧ GroupDbgRep sp y bpg qw vw (upd cs g ((cs g).eraseIdx i)) := by
  have h1 := flat_le (cs := cs) (show g + 1 ≤ bpg by omega)
  have h2 := h.ends.lt
  have h3 := flat_succ (cs := cs) (g := g)
  have hidx : (flat cs g).length + i < (flat cs bpg).length := by omega
  obtain ⟨ks, k1, k2, k3⟩ := h.keys.ok.erase (c := c) hqw h.keys.data hs (i := (flat cs g).length + i) (by simpa using hidx)
  obtain ⟨vs, v1, v2, v3⟩ := h.vals.ok.erase (c := c) hvw h.vals.data hs (i := (flat cs g).length + i) (by simpa using hidx)
  obtain ⟨b, b', blen, y, b1, b2, b3, b4⟩ := h.ends.erase hg hi ks vs
  rw [List.length_map] at k1 v1
  have hl := flat_erase hg hi
  obtain ⟨c1, c2⟩ := b4.checks (c := c) hb
  have c3 := c2 b' (by rw [b3])
  have hyb : y.blen = blen := by rw [b3]
  have hst : (if g = 0 then .ok 0 else x.pos c (if g = 0 then 0 else g - 1) : Res Nat) =
      .ok ((flat cs g).length + (if g = 0 then 0 else g - 1)) := by
    by_cases hg0 : g = 0
    · subst hg0; rfl
    · rw [if_neg hg0, if_neg hg0, h.ends.pos hb (by omega), show g - 1 + 1 = g by omega]
  have hpl : (if g = 0 then 0 else g - 1) ≤ g := by split <;> omega
  have hix : (sub64 ((flat cs g).length + (if g = 0 then 0 else g - 1)) (if g = 0 then 0 else g - 1) + i) % W64 =
      (flat cs g).length + i := by
    rw [sub64_eq (by omega) (by rw [W64_eq]; omega), Nat.add_sub_cancel, Nat.mod_eq_of_lt (by rw [W64_eq]; omega)]
  refine ⟨y, ?_, b4, ?_, ?_⟩
  · unfold GroupDbg.erase
    simp only
    rw [hst, ok_bind, hix, h.ends.pos hb hg, ok_bind,
      ddcheck_ok (by rw [Nat.mod_eq_of_lt (by rw [W64_eq]; omega)]; omega), ok_bind]
    rw [h.ends.size] at b2 b3 ⊢
    have hya : (x.arr.mapIdx (fun i a => if g ≤ i then sub64 a 1 else a)).length = y.arr.length := by rw [b3]
    rw [k1, ok_bind, v1, ok_bind, b1, ok_bind, b2, ok_bind]
    simp only
    rw [← b3, hya, c1, ok_bind, ← hyb, c3, ok_bind, h.ends.gs, ddcheck_ok rfl, ok_bind, pure_eq_ok]
  · rw [b3, hl, map_eraseIdx]; exact ⟨k2, k3⟩
  · rw [b3, hl, map_eraseIdx]; exact ⟨v2, v3⟩

theorem GroupDbgRep.writeValue (h : GroupDbgRep sp x bpg qw vw cs) (hb : bpg ≤ 255) (hvw : 1 ≤ vw) {g : Nat} (hg : g < bpg) {i : Nat}
    (hi : i < (cs g).length) {v : Nat} (hv : v < 2 ^ vw) : ∃ y, x.writeValue c g i v vw = .ok y ∧
      GroupDbgRep sp y bpg qw vw (upd cs g ((cs g).set i ((cs g)[i].1, v))) := by
  obtain ⟨h1, h2⟩ := flat_get hg hi
  obtain ⟨vs, v1, v2, v3⟩ := h.vals.ok.write (c := c) hvw h.vals.data (i := (flat cs g).length + i) (by simpa using h1) hv
  obtain ⟨b, b1, b2, b3⟩ := h.ends.border
  have hl := flat_set hg hi ((cs g)[i].1, v)
  have hlen : ∀ n, (flat (upd cs g ((cs g).set i ((cs g)[i].1, v))) n).length = (flat cs n).length := by
    intro n
    have := flat_upd_length (cs := cs) (n := n) (g := g) ((cs g).set i ((cs g)[i].1, v))
    rw [List.length_set] at this
    omega
  unfold GroupDbg.writeValue
  rw [ddcheck_ok (by rw [h.ends.gs]; exact hg), ok_bind, h.ends.start hb hg, ok_bind, h.ends.index hb hg hi, v1, ok_bind]
  refine ⟨_, rfl, ⟨by rw [hlen]; exact h.ends.size, by rw [hlen]; exact h.ends.lt, ?_, ⟨b, b1, ?_, by rw [hlen]; exact b3⟩,
    by rw [hlen]; exact h.ends.blen, ?_, h.ends.gs⟩, ?_, ?_⟩
  · intro k hk; rw [upd_other _ _ (by omega)]; exact h.ends.out k hk
  · rw [hlen, lens_upd, List.length_set]
    rw [show upd (fun k => (cs k).length) g (cs g).length = fun k => (cs k).length from upd_self _ g]
    exact b2
  · show x.arr = _
    rw [h.ends.arr]
    apply List.map_congr_left
    intro k _; rw [hlen]
  · rw [hl, List.map_set]
    have : ((flat cs bpg).map Prod.fst).set ((flat cs g).length + i) (cs g)[i].1 = (flat cs bpg).map Prod.fst := by
      apply List.ext_getElem (by simp)
      intro j hj1 hj2
      rw [List.getElem_set]
      split
      · rename_i e; subst e; simp [h2]
      · rfl
    rw [this]
    exact h.keys
  · rw [hl, List.map_set]; exact ⟨v2, v3⟩

end SC
