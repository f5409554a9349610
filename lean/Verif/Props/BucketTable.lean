import Verif.BucketTable.Run
/-!
# Properties of `bucket_table`: C46, C47, C60
-/
namespace SC
variable {A : Type} {c : BtCfg A PlainB} {W kw : Nat}

/-- the instantiations that are covered: bucket classes of the library in a release build, keys that fit -/
structure BtOK (c : BtCfg A PlainB) (W kw : Nat) : Prop where
  keys : IsBtKey A c.kops c.knull W
  vals : IsBtVal c.vops c.vnull c.vbits
  kw_pos : 1 ≤ kw
  kw_le : kw ≤ W

theorem IsBtKey.le {ops : BucketOps A} {null : A → Bool} {W : Nat} (h : IsBtKey A ops null W) : W ≤ 64 := by
  cases h <;> omega

theorem IsBtVal.bounds {ops : BucketOps PlainB} {null : PlainB → Bool} {s : Nat} (h : IsBtVal ops null s) : 1 ≤ s ∧ s ≤ 64 := by
  cases h <;> omega

theorem BtOK.laws (h : BtOK c W kw) : ∃ M, BtLaws c kw M := by
  obtain ⟨norm, Rep, spare, ok, K⟩ := h.keys.lawful
  have V := h.vals.lawful
  have hW := h.keys.le
  have := h.kw_le
  exact ⟨⟨norm, Rep, spare, ok, _, _⟩, K.core, K.find, K.opt, fun x hx => K.norm kw x h.kw_le hx, fun x hx => K.ok kw x h.kw_le hx,
    V.core, V.opt, V.ok, V.lt, h.kw_pos, by omega, h.vals.bounds.1, h.vals.bounds.2⟩

/-- `t` is the table after the calls `ops` on a new table -/
def BtAfter (c : BtCfg A PlainB) (kw : Nat) (ops : List MapOp) (t : BTab A PlainB) : Prop :=
  ∃ as, BTab.run c (BTab.new c kw) ops = .ok (t, as)

/-! ## An instantiation for the examples -/

/-- `bucket_table<varwidth_bucket<>, plain_bucket<uint16_t>, incremental_resize>` -/
def btEx : BtCfg VarB PlainB :=
  { kops := varOps ⟨64, true, fun _ => true⟩, vops := plainOps 16, knull := Option.isNone, vnull := Option.isNone, kbits := 64, vbits := 16,
    strat := .incremental }

theorem btExOK : BtOK btEx 64 11 where
  keys := .varwidth (by simp [VarCfg.good])
  vals := .plain (by simp)
  kw_pos := by decide
  kw_le := by decide

def btExOps : List MapOp :=
  (List.range 50).map (fun i => .insert (7 * i) (70000 + i)) ++
  [.assign 14 7, .erase 21, .erase 2000, .shrink, .get 2047, .find 14, .count 21, .size]

theorem btExOps_valid : ∀ op ∈ btExOps, BtValid 11 op := by decide +kernel

theorem btExOps_fits : Fits (fun v => v % 2 ^ 16) (2 ^ 32 - 1) FMap.empty btExOps := fits_of_length (by decide)

/-- `bucket_table<plain_bucket<uint32_t>, plain_bucket<uint16_t>, arbitrary_resize_bucket>` -/
def btExA : BtCfg PlainB PlainB :=
  { kops := plainOps 32, vops := plainOps 16, knull := Option.isNone, vnull := Option.isNone, kbits := 32, vbits := 16, strat := .arbitrary }

theorem btExAOK : BtOK btExA 32 32 where
  keys := .plain (by simp)
  vals := .plain (by simp)
  kw_pos := by decide
  kw_le := by decide

/-! ## C46 -/

/-- **C46**: every sequence of calls on a new table runs without fault, terminates, and gives the answers of a finite map, as long as the
number of elements never exceeds `2^32-1` (for `incremental_resize`, because `m_elements` has 32 bits) or 255 (for `arbitrary_resize_bucket`). -/
theorem C46_bucket_table_map (h : BtOK c W kw) (ops : List MapOp) (hops : ∀ op ∈ ops, BtValid kw op)
    (hfit : Fits (fun v => v % 2 ^ c.vbits) (match c.strat with | .incremental => 2 ^ 32 - 1 | .arbitrary => 255) FMap.empty ops) :
    ∃ t, BTab.run c (BTab.new c kw) ops = .ok (t, FMap.empty.run (fun v => v % 2 ^ c.vbits) ops) := by
  obtain ⟨M, L⟩ := h.laws
  obtain ⟨t, l, h1, _⟩ := BtRep.run L ops (BtRep.new L) Abs.empty hops (by cases hs : c.strat <;> rw [hs] at hfit <;> exact hfit)
  exact ⟨t, h1⟩

example : ∃ t, BTab.run btEx (BTab.new btEx 11) btExOps = .ok (t, FMap.empty.run (fun v => v % 2 ^ 16) btExOps) :=
  C46_bucket_table_map btExOK btExOps btExOps_valid btExOps_fits

/-- the answers to the last calls of the example -/
example : (FMap.empty.run (fun v => v % 2 ^ 16) btExOps).drop 50 =
    [.none, .num 1, .num 0, .none, .num 0, .pair 14 7, .num 0, .num 50] := by decide +kernel

/-! ## C60 -/

/-- **C60**: forward iteration gives the stored pairs, each once; iteration from `rbegin_nav()` gives them in reverse order, also for an empty
table; after `shrink_to_fit()` the capacity of a non-empty table is the number of elements. -/
theorem C60_bucket_table_iteration (h : BtOK c W kw) {ops : List MapOp} (hops : ∀ op ∈ ops, BtValid kw op)
    (hfit : Fits (fun v => v % 2 ^ c.vbits) (match c.strat with | .incremental => 2 ^ 32 - 1 | .arbitrary => 255) FMap.empty ops)
    {t : BTab A PlainB} (ht : BtAfter c kw ops t) :
    ∃ l, t.pairs c = .ok l ∧ t.pairsBack c = .ok l.reverse ∧ (l.map Prod.fst).Nodup ∧
      (∀ k v, (k, v) ∈ l ↔ (FMap.empty.after (fun v => v % 2 ^ c.vbits) ops).get k = some v) ∧
      l.length = (FMap.empty.after (fun v => v % 2 ^ c.vbits) ops).size ∧
      ∃ t', t.shrink c = .ok t' ∧ t'.pairs c = .ok l ∧ (l ≠ [] → t'.capacity c = l.length) := by
  obtain ⟨M, L⟩ := h.laws
  obtain ⟨t1, l, h1, h2, h3⟩ := BtRep.run L ops (BtRep.new L) Abs.empty hops (by cases hs : c.strat <;> rw [hs] at hfit <;> exact hfit)
  obtain ⟨as, ht⟩ := ht
  rw [ht] at h1
  have : t = t1 := congrArg Prod.fst (Except.ok.inj h1)
  subst this
  obtain ⟨t', s1, s2, s3⟩ := h2.shrink L
  exact ⟨l, h2.pairs L, h2.pairsBack L, h2.nodup, fun k v => (h3.get k v).symm, h3.size.symm, t', s1, s2.pairs L, s3⟩

example : ∃ t, BtAfter btEx 11 btExOps t := by
  obtain ⟨t, ht⟩ := C46_bucket_table_map btExOK btExOps btExOps_valid btExOps_fits
  exact ⟨t, _, ht⟩

/-! ## C47 -/

/-- **C47** is false: with `arbitrary_resize_bucket` and a plain key bucket, once there are 255 elements, the insertion of another key writes
behind the end of the bucket, whatever calls led there. -/
theorem C47_full_insert_oob {c : BtCfg PlainB PlainB} {s kw : Nat} (hkey : c.kops = plainOps s ∨ c.kops = classOps s ∨ c.kops = avxOps s)
    (hnull : c.knull = Option.isNone) (hs : s = 8 ∨ s = 16 ∨ s = 32 ∨ s = 64) (hval : IsBtVal c.vops c.vnull c.vbits) (hrel : c.debug = false)
    (hst : c.strat = .arbitrary) (hkw : 1 ≤ kw) (hle : kw ≤ s)
    (ops : List MapOp) (hops : ∀ op ∈ ops, BtValid kw op) (hfit : Fits (fun v => v % 2 ^ c.vbits) 255 FMap.empty ops)
    (hfull : (FMap.empty.after (fun v => v % 2 ^ c.vbits) ops).size = 255) {k v : Nat} (hk : k < 2 ^ kw)
    (hnew : (FMap.empty.after (fun v => v % 2 ^ c.vbits) ops).get k = none) :
    ∃ t as, BTab.run c (BTab.new c kw) ops = .ok (t, as) ∧ t.insert c k v = .error .oob := by
  have hv := hval.bounds
  have V := hval.lawful
  have hopt : LawfulOpt c.kops c.knull (PlainRep s) := by
    rw [hnull]
    rcases hkey with e | e | e <;> rw [e] <;> exact ⟨rfl, fun _ => rfl, fun b w cap xs h => plainRep_data h, fun b w cap xs n h => h.take n⟩
  have L : BtLaws c kw ⟨fun _ x => x % 2 ^ s, PlainRep s, false, fun _ _ => True, PlainRep c.vbits, fun _ _ => True⟩ := by
    refine ⟨?_, ?_, hopt, fun x => mod_fits s kw x hle, fun _ _ => trivial, V.core, V.opt, V.ok, V.lt, hkw, by omega, hv.1, hv.2⟩
    · rcases hkey with e | e | e <;> rw [e]
      · exact (lawful_plain (bits8 hs)).toLawfulCore
      · exact (lawful_class (bits8 hs)).toLawfulCore
      · exact (lawful_avx hs).toLawfulCore
    · rcases hkey with e | e | e <;> rw [e]
      · exact lawful_plain_find s
      · exact lawful_class_find s
      · exact lawful_avx_find hs
  obtain ⟨t, l, h1, h2, h3⟩ := BtRep.run L ops (BtRep.new L) Abs.empty hops (by rw [hst]; exact hfit)
  refine ⟨t, _, h1, ?_⟩
  have hlen : l.length = 255 := by rw [← h3.size]; exact hfull
  have hl : l ≠ [] := by intro e; subst e; simp at hlen
  unfold BTab.insert
  rw [hrel, ddcheck_off, ok_bind, h2.isNone L]
  simp only [hl, decide_false, Bool.false_eq_true, if_false, h2.locate L hl hk, ok_bind]
  have he : posOf (l.map Prod.fst) k = NPOS := (posOf_npos (by simp; omega)).mpr (h3.none.mp hnew)
  have e1 : (t.elems + 1) % 2 ^ 32 = 256 := by rw [h2.elems, hlen]
  rw [he, e1]
  simp only [ne_eq, not_true_eq_false, if_false]
  obtain ⟨e, _⟩ | ⟨_, _, kc, vc, r1, r2, r3⟩ := h2.mem
  · exact absurd e hl
  · have hge := L.keys.cap_ge _ _ _ _ r1
    have hb : btGrow c.strat 256 = 255 := by rw [hst]; decide
    -- whether there is a resize or not, the bucket has 255 entries afterwards
    have wr : ∀ (ks : PlainB), PlainRep s ks kw 255 (l.map Prod.fst) → c.kops.write ks 255 k kw = .error .oob := by
      intro ks hr
      obtain ⟨rest, rfl, e2, _⟩ := hr
      have hrest : rest = [] := List.eq_nil_of_length_eq_zero (by simp at e2; omega)
      subst hrest
      rcases hkey with e | e | e <;> rw [e] <;> simp only [plainOps, classOps, avxOps, cellWrite] <;> rw [if_neg (by simp; omega)]
    obtain ⟨ks, k1, k2⟩ := L.keys.resize _ _ _ _ 255 L.kw_pos L.kw_le r1 (by simp; omega) (by omega)
    obtain ⟨vs, v1, v2⟩ := L.vals.resize _ _ _ _ 255 L.v_pos L.v_le r2 (by simp; omega) (by omega)
    rw [List.length_map, hlen] at k1 v1
    have hn : t.needsResize c 256 = true := by
      have := h2.len hst
      unfold BTab.needsResize
      rw [hst]
      simp only [decide_eq_true_eq]
      omega
    rw [BTab.plainGrow, hrel, if_neg (by decide), ok_bind, if_pos hn]
    simp only [hb, h2.width, Nat.reduceSub, k1, ok_bind, v1, BTab.put, BTab.plainWrite, hrel, ddcheck_off, Bool.false_eq_true, if_false, wr ks k2, error_bind]

/-- the keys 0, …, 255 in turn -/
def btFill (n : Nat) : List MapOp := (List.range n).map (fun i => .insert i i)

theorem btFill_valid : ∀ op ∈ btFill 255, BtValid 32 op := by decide +kernel

theorem btFill_length : FMap.empty.size + (btFill 255).length ≤ 255 := by
  simp [btFill, FMap.empty]

/-- they lead to the map with these keys -/
theorem btFill_after (n : Nat) : (∀ k, (FMap.empty.after (fun v => v % 2 ^ 16) (btFill n)).get k = if k < n then some (k % 2 ^ 16) else none) ∧
    (FMap.empty.after (fun v => v % 2 ^ 16) (btFill n)).size = n := by
  induction n with
  | zero => exact ⟨fun k => by simp [btFill, FMap.after, FMap.empty], rfl⟩
  | succ n ih =>
    have e : btFill (n + 1) = btFill n ++ [.insert n n] := by simp [btFill, List.range_succ]
    have e1 : (FMap.empty.after (fun v => v % 2 ^ 16) (btFill n)).get n = none := by rw [ih.1]; simp
    rw [e, FMap.after_append]
    simp only [FMap.after, FMap.step, e1, FMap.put, ih.1, ih.2]
    refine ⟨fun k => ?_, by simp⟩
    by_cases hk : k = n
    · subst hk; simp
    · simp only [hk, if_false]
      by_cases h : k < n
      · rw [if_pos h, if_pos (by omega)]
      · rw [if_neg h, if_neg (by omega)]

/-- **C47** is false: the 256th insertion fails. -/
theorem C47_no_limit_false :
    ¬ ∀ ops, (∀ op ∈ ops, BtValid 32 op) → ∃ t as, BTab.run btExA (BTab.new btExA 32) ops = .ok (t, as) := by
  intro hall
  have e1 : (FMap.empty.after (fun v => v % 2 ^ btExA.vbits) (btFill 255)).get 255 = none := by
    rw [show btExA.vbits = 16 from rfl]
    rw [(btFill_after 255).1, if_neg (by omega)]
  obtain ⟨t, as, h1, h2⟩ := C47_full_insert_oob (c := btExA) (s := 32) (kw := 32) (k := 255) (v := 0) (.inl rfl) rfl (by simp) btExAOK.vals rfl rfl (by decide) (by decide)
    (btFill 255) btFill_valid (fits_of_length btFill_length) (btFill_after 255).2 (by decide) e1
  obtain ⟨t', as', h3⟩ := hall (btFill 255 ++ [.insert 255 0]) (by
    intro op hop
    rcases List.mem_append.mp hop with h | h
    · exact btFill_valid op h
    · rw [List.mem_singleton.mp h]; decide)
  rw [BTab.run_append btExA _ _ h1] at h3
  simp only [BTab.run, BTab.step, h2, error_bind, Except.map] at h3
  cases h3

/-- The part of **C47** that holds: the calls are memory safe as long as there are at most 255 elements. -/
theorem C47_no_limit_partial (h : BtOK c W kw) (hst : c.strat = .arbitrary) (ops : List MapOp) (hops : ∀ op ∈ ops, BtValid kw op)
    (hfit : Fits (fun v => v % 2 ^ c.vbits) 255 FMap.empty ops) : ∃ t as, BTab.run c (BTab.new c kw) ops = .ok (t, as) := by
  obtain ⟨t, ht⟩ := C46_bucket_table_map h ops hops (by rw [hst]; exact hfit)
  exact ⟨t, _, ht⟩

example : BtOK btExA 32 32 ∧ Fits (fun v => v % 2 ^ 16) 255 FMap.empty (btFill 255) := ⟨btExAOK, fits_of_length btFill_length⟩

end SC
