import Verif.Sep.Store
/-! # The storage of `separate_chaining_table` is lawful -/
namespace SC
variable {KB VB : Type}

/-- bucket `x` holds the pairs `xs`; `tight` demands in addition that the stored capacity is right, which fails after
`deserialize` -/
structure SepBRep (p : SepCfg KB VB) (KRep : KB → Nat → Nat → List Nat → Prop) (VRep : VB → Nat → Nat → List Nat → Prop)
    (tight : Bool) (qw vw : Nat) (x : SepBucket KB VB) (xs : List (Nat × Nat)) : Prop where
  size : x.size = xs.length
  le : xs.length ≤ p.maxSize
  rep : xs ≠ [] → ∃ cap, KRep x.keys qw cap (xs.map Prod.fst) ∧ VRep x.vals vw cap (xs.map Prod.snd) ∧
    (p.strat = .arbitrary → x.cap ≤ cap) ∧ cap ≤ 255
  cap0 : xs = [] → x.cap = 0
  nil : xs = [] → (x.keys = p.kops.empty ∨ ∃ k, x.keys = p.kops.clear k) ∧
    (x.vals = p.vops.empty ∨ ∃ v, x.vals = p.vops.clear v)
  cap : tight = true → p.strat = .arbitrary → xs.length ≤ x.cap

/-- the storage holds the buckets `c` -/
structure SepRep (p : SepCfg KB VB) (KRep : KB → Nat → Nat → List Nat → Prop) (VRep : VB → Nat → Nat → List Nat → Prop)
    (tight : Bool) (s : SepStore KB VB) (d : Dim) (c : Cont) : Prop where
  n : s.n = 2 ^ d.tb
  bkt : ∀ b < 2 ^ d.tb, SepBRep p KRep VRep tight d.qw d.vw (s.bkt b) (c b)

variable {p : SepCfg KB VB} {knorm vnorm : Nat → Nat → Nat} {KRep : KB → Nat → Nat → List Nat → Prop}
  {VRep : VB → Nat → Nat → List Nat → Prop} {tight : Bool}

theorem SepRep.get {s : SepStore KB VB} {d : Dim} {c : Cont} (h : SepRep p KRep VRep tight s d c) {b : Nat}
    (hb : b < 2 ^ d.tb) : s.get b = .ok (s.bkt b) := by
  unfold SepStore.get; rw [h.n, if_pos hb]

theorem SepRep.set {s : SepStore KB VB} {d : Dim} {c : Cont} (h : SepRep p KRep VRep tight s d c) {b : Nat}
    {x : SepBucket KB VB} {xs : List (Nat × Nat)} (hx : SepBRep p KRep VRep tight d.qw d.vw x xs) :
    SepRep p KRep VRep tight (s.set b x) d (upd c b xs) where
  n := h.n
  bkt := by
    intro b' hb'
    unfold SepStore.set
    by_cases e : b' = b
    · subst e; simp only [upd_same]; exact hx
    · simp only [upd_other _ _ e]; exact h.bkt b' hb'

theorem arbResize_ge {n : Nat} (h1 : 1 ≤ n) (h2 : n ≤ 255) : n ≤ arbResize n ∧ arbResize n ≤ 255 := by
  unfold arbResize
  split <;> simp only [maxBucketByteSize] at * <;> omega

theorem arbResize_mod {n : Nat} (h1 : 1 ≤ n) (h2 : n ≤ 255) : arbResize n % 256 = arbResize n :=
  Nat.mod_eq_of_lt (by have := arbResize_ge h1 h2; omega)

theorem sizeAfterIncrement_ge {st : Strategy} {n : Nat} (h1 : 1 ≤ n) (h2 : n ≤ 255) : n ≤ st.sizeAfterIncrement n := by
  cases st with
  | incremental => exact Nat.le_refl _
  | arbitrary =>
    show n ≤ arbResize n % 256
    rw [arbResize_mod h1 h2]; exact (arbResize_ge h1 h2).1

theorem sizeAfterIncrement_le {st : Strategy} {n : Nat} (h2 : n ≤ 255) : st.sizeAfterIncrement n ≤ 255 := by
  cases st with
  | incremental => exact h2
  | arbitrary =>
    show arbResize n % 256 ≤ 255
    omega

theorem sepPush {kok vok : Nat → Nat → Prop} (hK : LawfulCore p.kops knorm KRep false kok)
    (hV : LawfulCore p.vops vnorm VRep false vok) {W : Nat} {d : Dim}
    (hd : GoodDim W d) (hn : ∀ w x, w ≤ W → x < 2 ^ w → knorm w x = x)
    (hko : ∀ w x, w ≤ W → x < 2 ^ w → kok w x) {x : SepBucket KB VB} {xs : List (Nat × Nat)}
    {q : Nat} (v : Nat) (hq : q < 2 ^ d.qw) (hvo : vok d.vw v) (h : SepBRep p KRep VRep tight d.qw d.vw x xs) (hlt : xs.length < p.maxSize) :
    ∃ x', p.pushBucket d x q v = .ok x' ∧
      SepBRep p KRep VRep tight d.qw d.vw x' (xs ++ [(q, vnorm d.vw v)]) := by
  have hM : p.maxSize ≤ 255 := by unfold SepCfg.maxSize; omega
  have hkn : knorm d.qw q = q := hn _ _ hd.qw_le_W hq
  have hqw64 : d.qw ≤ 64 := Nat.le_trans hd.qw_le hd.kw_le
  -- the bucket before the entry is written
  have main : ∃ y cap, (if x.size = 0 then do
        let ks ← p.kops.init 1 d.kw
        let vs ← p.vops.init 1 d.vw
        return { keys := ks, vals := vs, size := 1, cap := 1 }
      else
        let size := (x.size + 1) % 256
        if p.strat.needsResize x.cap size then do
          let new := p.strat.sizeAfterIncrement size
          let ks ← p.kops.resize x.keys (size - 1) new d.qw
          let vs ← p.vops.resize x.vals (size - 1) new d.vw
          return { keys := ks, vals := vs, size := size, cap := new }
        else return { x with size := size } : Res (SepBucket KB VB)) = .ok y ∧ y.size = xs.length + 1 ∧
      KRep y.keys d.qw cap (xs.map Prod.fst) ∧ VRep y.vals d.vw cap (xs.map Prod.snd) ∧ xs.length < cap ∧ cap ≤ 255 ∧
      (p.strat = .arbitrary → y.cap ≤ cap) ∧ (tight = true → p.strat = .arbitrary → xs.length + 1 ≤ y.cap) := by
    by_cases h0 : x.size = 0
    · have hnil : xs = [] := List.eq_nil_of_length_eq_zero (by rw [← h.size]; exact h0)
      subst hnil
      obtain ⟨ks, k1, k2⟩ := hK.init 1 d.kw d.qw hd.qw_pos hd.qw_le hd.kw_le
      obtain ⟨vs, v1, v2⟩ := hV.init 1 d.vw d.vw hd.vw_pos (Nat.le_refl _) hd.vw_le
      refine ⟨{ keys := ks, vals := vs, size := 1, cap := 1 }, 1, ?_, rfl, k2, v2, by simp, by omega, fun _ => Nat.le_refl _, fun _ _ => by simp⟩
      rw [if_pos h0]
      simp only [k1, v1, ok_bind, pure_eq_ok]
    · have hne : xs ≠ [] := by intro e; subst e; exact h0 h.size
      obtain ⟨cap, hk, hv, hc, hc255⟩ := h.rep hne
      have hs : (x.size + 1) % 256 = xs.length + 1 := by rw [h.size]; exact Nat.mod_eq_of_lt (by omega)
      rw [if_neg h0]
      simp only [hs]
      by_cases hr : p.strat.needsResize x.cap (xs.length + 1) = true
      · have hge := sizeAfterIncrement_ge (st := p.strat) (n := xs.length + 1) (by omega) (by omega)
        have hkl : (xs.map Prod.fst).length ≤ p.strat.sizeAfterIncrement (xs.length + 1) := by rw [List.length_map]; omega
        have hvl : (xs.map Prod.snd).length ≤ p.strat.sizeAfterIncrement (xs.length + 1) := by rw [List.length_map]; omega
        obtain ⟨ks, k1, k2⟩ := hK.resize _ _ _ _ (p.strat.sizeAfterIncrement (xs.length + 1)) hd.qw_pos hqw64 hk hkl (by omega)
        obtain ⟨vs, v1, v2⟩ := hV.resize _ _ _ _ (p.strat.sizeAfterIncrement (xs.length + 1)) hd.vw_pos hd.vw_le hv hvl (by omega)
        rw [List.length_map] at k1 v1
        refine ⟨{ keys := ks, vals := vs, size := xs.length + 1, cap := p.strat.sizeAfterIncrement (xs.length + 1) }, _,
          ?_, rfl, k2, v2, by omega, sizeAfterIncrement_le (by omega), fun _ => Nat.le_refl _, fun _ _ => hge⟩
        rw [if_pos hr]
        simp only [Nat.add_sub_cancel, k1, v1, ok_bind, pure_eq_ok]
      · rw [if_neg hr]
        cases hst : p.strat with
        | incremental => rw [hst] at hr; exact absurd rfl hr
        | arbitrary =>
          rw [hst] at hr
          simp only [Strategy.needsResize, decide_eq_true_eq] at hr
          have := hc hst
          exact ⟨{ x with size := xs.length + 1 }, cap, rfl, rfl, hk, hv, by omega, hc255, fun _ => this, fun _ _ => by
            show xs.length + 1 ≤ x.cap
            omega⟩
  obtain ⟨y, cap, hy, hys, hyk, hyv, hlen, hy255, hyc, hyt⟩ := main
  obtain ⟨ks, k1, k2⟩ := hK.write_new _ _ _ _ q hd.qw_pos hqw64 hyk (by rw [List.length_map]; exact hlen) (hko _ _ hd.qw_le_W hq)
  obtain ⟨vs, v1, v2⟩ := hV.write_new _ _ _ _ v hd.vw_pos hd.vw_le hyv (by rw [List.length_map]; exact hlen) hvo
  rw [List.length_map] at k1 v1
  refine ⟨{ y with keys := ks, vals := vs }, ?_, ?_⟩
  · unfold SepCfg.pushBucket
    rw [hy]
    simp only [ok_bind, hys, Nat.add_sub_cancel, k1, v1, pure_eq_ok]
  · exact {
      size := by simp [hys]
      le := by simp; omega
      rep := by
        intro _
        refine ⟨cap, ?_, ?_, hyc, hy255⟩
        · rw [hkn] at k2; simpa using k2
        · simpa using v2
      cap0 := by simp
      nil := by simp
      cap := by intro h1 h2; simpa using hyt h1 h2 }

theorem lawful_sep_core {kok vok : Nat → Nat → Prop} (hK : LawfulCore p.kops knorm KRep false kok)
    (hKf : LawfulFind p.kops knorm KRep) (hV : LawfulCore p.vops vnorm VRep false vok) {W : Nat}
    (hn : ∀ w x, w ≤ W → x < 2 ^ w → knorm w x = x) (hko : ∀ w x, w ≤ W → x < 2 ^ w → kok w x) (tight : Bool) :
    LawfulStore p.ops vnorm (SepRep p KRep VRep tight) p.maxSize 1 W vok where
  alloc d := ⟨_, rfl, fun _ _ => { n := rfl, bkt := fun b _ => {
    size := rfl, le := Nat.zero_le _, rep := fun h => absurd rfl h, cap0 := fun _ => rfl,
    nil := fun _ => ⟨Or.inl rfl, Or.inl rfl⟩, cap := fun _ _ => Nat.le_refl _ } }⟩
  size s d c b hd h hb := by
    simp only [SepCfg.ops, h.get hb, ok_bind, pure_eq_ok, (h.bkt b hb).size]
  locate s d c b q hd h hb hq := by
    have hx := h.bkt b hb
    simp only [SepCfg.ops, h.get hb, ok_bind]
    by_cases hne : c b = []
    · rw [hx.size, hne]
      simp only [List.length_nil, List.map_nil]
      rw [hKf.find_empty]
      rfl
    · obtain ⟨cap, hk, _, _⟩ := hx.rep hne
      have := hKf.find _ _ _ _ q hd.qw_pos (Nat.le_trans hd.qw_le hd.kw_le) hk (hn _ _ hd.qw_le_W hq)
      rw [List.length_map] at this
      rw [hx.size, this]
  full s d c b hd h hb := by
    have hx := h.bkt b hb
    refine ⟨(s.bkt b).size == p.maxSize, by simp only [SepCfg.ops, h.get hb, ok_bind, pure_eq_ok], ?_⟩
    intro hr
    refine ⟨[b], by simp, by simp, by simp, by simpa using hb, ?_⟩
    have := beq_iff_eq.mp hr
    rw [hx.size] at this
    simp [this]
  push s d c b q v hd h hb hq hf hvo := by
    have hx := h.bkt b hb
    have hlt : (c b).length < p.maxSize := by
      simp only [SepCfg.ops, h.get hb, ok_bind, pure_eq_ok, Except.ok.injEq, beq_eq_false_iff_ne, ne_eq, hx.size] at hf
      have := hx.le
      omega
    obtain ⟨x', h1, h2⟩ := sepPush hK hV hd hn hko v hq hvo hx hlt
    refine ⟨s.set b x', ?_, h.set h2⟩
    simp only [SepCfg.ops, h.get hb, ok_bind, h1, pure_eq_ok]
  quotientAt s d c b i hd h hb hi := by
    have hx := h.bkt b hb
    obtain ⟨cap, hk, _, _⟩ := hx.rep (by intro e; rw [e] at hi; simp at hi)
    simp only [SepCfg.ops, h.get hb, ok_bind]
    rw [hK.read _ _ _ _ i hd.qw_pos (Nat.le_trans hd.qw_le hd.kw_le) hk (by simpa using hi)]
    simp
  valueAt s d c b i hd h hb hi := by
    have hx := h.bkt b hb
    obtain ⟨cap, _, hv, _⟩ := hx.rep (by intro e; rw [e] at hi; simp at hi)
    simp only [SepCfg.ops, h.get hb, ok_bind]
    rw [hV.read _ _ _ _ i hd.vw_pos hd.vw_le hv (by simpa using hi)]
    simp
  writeValue s d c b i v hd h hb hi hvo := by
    have hx := h.bkt b hb
    obtain ⟨cap, hk, hv, hc⟩ := hx.rep (by intro e; rw [e] at hi; simp at hi)
    obtain ⟨vs, v1, v2⟩ := hV.write_old _ _ _ _ v i hd.vw_pos hd.vw_le hv (by simpa using hi) hvo
    refine ⟨s.set b { s.bkt b with vals := vs }, ?_, h.set ?_⟩
    · simp only [SepCfg.ops, h.get hb, ok_bind, v1, pure_eq_ok]
    · have hfst : ((c b).set i ((c b)[i].1, vnorm d.vw v)).map Prod.fst = (c b).map Prod.fst := by
        rw [List.map_set]
        have : ((c b)[i].1 : Nat) = ((c b).map Prod.fst)[i]'(by simpa using hi) := by simp
        simp only [this, List.set_getElem_self]
      exact {
        size := by simp [hx.size]
        le := by simpa using hx.le
        rep := by
          intro _
          refine ⟨cap, ?_, ?_, hc⟩
          · rw [hfst]; exact hk
          · rw [List.map_set]; exact v2
        cap0 := by
          intro e
          have := congrArg List.length e
          simp at this
          exact hx.cap0 this
        nil := by
          intro e
          have := congrArg List.length e
          simp at this
          rw [this] at hi; simp at hi
        cap := by intro h1 h2; simpa using hx.cap h1 h2 }
  eraseAt s d c b i hd h hb hi := by
    have hx := h.bkt b hb
    have hM : p.maxSize ≤ 255 := by unfold SepCfg.maxSize; omega
    have hle := hx.le
    obtain ⟨cap, hk, hv, hc⟩ := hx.rep (by intro e; rw [e] at hi; simp at hi)
    obtain ⟨ks, k1, k2⟩ := hK.erase _ _ _ _ i hd.qw_pos (Nat.le_trans hd.qw_le hd.kw_le) hk (by simpa using hi) (by simp)
    obtain ⟨vs, v1, v2⟩ := hV.erase _ _ _ _ i hd.vw_pos hd.vw_le hv (by simpa using hi) (by simp)
    rw [List.length_map] at k1 v1
    have hs : ((s.bkt b).size + 255) % 256 = (c b).length - 1 := by rw [hx.size]; omega
    have hlen : ((c b).eraseIdx i).length = (c b).length - 1 := by rw [List.length_eraseIdx, if_pos hi]
    by_cases h1 : (c b).length - 1 = 0
    · have hnil : (c b).eraseIdx i = [] := List.eq_nil_of_length_eq_zero (by rw [hlen, h1])
      refine ⟨s.set b (p.clearBucket { s.bkt b with keys := ks, vals := vs, size := (c b).length - 1 }), ?_, h.set ?_⟩
      · simp only [SepCfg.ops, h.get hb, ok_bind, SepCfg.eraseBucket, hx.size, k1, v1, pure_eq_ok]
        rw [hx.size] at hs
        simp only [hs, h1, if_true]
      · rw [hnil]
        exact { size := rfl, le := Nat.zero_le _, rep := fun h => absurd rfl h, cap0 := fun _ => rfl,
                nil := fun _ => ⟨Or.inr ⟨_, rfl⟩, Or.inr ⟨_, rfl⟩⟩, cap := fun _ _ => Nat.le_refl _ }
    · refine ⟨s.set b { s.bkt b with keys := ks, vals := vs, size := (c b).length - 1 }, ?_, h.set ?_⟩
      · simp only [SepCfg.ops, h.get hb, ok_bind, SepCfg.eraseBucket, hx.size, k1, v1, pure_eq_ok]
        rw [hx.size] at hs
        simp only [hs, if_neg h1]
      · exact {
          size := by rw [hlen]
          le := by rw [hlen]; omega
          rep := by
            intro _
            exact ⟨cap, by rw [map_eraseIdx]; exact k2, by rw [map_eraseIdx]; exact v2, hc⟩
          cap0 := by intro e; rw [e] at hlen; simp at hlen; omega
          nil := by intro e; rw [e] at hlen; simp at hlen; omega
          cap := by intro e1 e2; have := hx.cap e1 e2; rw [hlen]; show _ ≤ (s.bkt b).cap; omega }
  shrink s d c b hd h hb := by
    have hx := h.bkt b hb
    have hself : ∀ x', SepBRep p KRep VRep tight d.qw d.vw x' (c b) → SepRep p KRep VRep tight (s.set b x') d c := by
      intro x' hx'
      have := h.set (b := b) hx'
      have e : upd c b (c b) = c := by
        funext b'
        by_cases e : b' = b
        · subst e; rw [upd_same]
        · rw [upd_other _ _ e]
      rwa [e] at this
    by_cases h0 : (s.bkt b).size = 0
    · refine ⟨s.set b (s.bkt b), ?_, hself _ hx⟩
      simp only [SepCfg.ops, h.get hb, ok_bind, SepCfg.shrinkBucket, h0, if_true, pure_eq_ok]
    · have hne : c b ≠ [] := by intro e; rw [hx.size, e] at h0; exact h0 rfl
      have hpos : 0 < (c b).length := List.length_pos_iff.mpr hne
      obtain ⟨cap, hk, hv, hc⟩ := hx.rep hne
      by_cases hcs : p.strat.canShrink (s.bkt b).cap (s.bkt b).size = true
      · obtain ⟨ks, k1, k2⟩ := hK.resize _ _ _ _ (c b).length hd.qw_pos (Nat.le_trans hd.qw_le hd.kw_le) hk (by simp) hpos
        obtain ⟨vs, v1, v2⟩ := hV.resize _ _ _ _ (c b).length hd.vw_pos hd.vw_le hv (by simp) hpos
        rw [List.length_map] at k1 v1
        refine ⟨s.set b { s.bkt b with keys := ks, vals := vs, cap := (s.bkt b).size }, ?_, hself _ ?_⟩
        · simp only [SepCfg.ops, h.get hb, ok_bind, SepCfg.shrinkBucket, if_neg h0, if_pos hcs]
          rw [hx.size, k1, ok_bind, v1, ok_bind]
          rfl
        · exact {
            size := hx.size
            le := hx.le
            rep := fun _ => ⟨_, k2, v2, fun _ => by show (s.bkt b).size ≤ _; rw [hx.size]; exact Nat.le_refl _, by have := hx.le; unfold SepCfg.maxSize at this; omega⟩
            cap0 := fun e => absurd e hne
            nil := fun e => absurd e hne
            cap := fun _ _ => by show _ ≤ (s.bkt b).size; rw [hx.size]; exact Nat.le_refl _ }
      · refine ⟨s.set b (s.bkt b), ?_, hself _ hx⟩
        simp only [SepCfg.ops, h.get hb, ok_bind, SepCfg.shrinkBucket, if_neg h0, if_neg hcs]
        rfl
  len s d c b hd h hb := by
    have := (h.bkt b hb).le
    have hM : p.maxSize ≤ 255 := by unfold SepCfg.maxSize; omega
    have : (255 : Nat) < NPOS := by decide
    omega

theorem lawful_sep (hK : LawfulBucket p.kops knorm KRep) (hKf : LawfulFind p.kops knorm KRep)
    (hV : LawfulBucket p.vops vnorm VRep) {W : Nat} (hn : ∀ w x, w ≤ W → x < 2 ^ w → knorm w x = x) (tight : Bool) :
    LawfulStore p.ops vnorm (SepRep p KRep VRep tight) p.maxSize 1 W :=
  lawful_sep_core hK.toLawfulCore hKf hV.toLawfulCore hn (fun _ _ _ _ => trivial) tight

end SC
