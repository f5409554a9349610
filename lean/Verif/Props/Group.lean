import Verif.Group.History
import Verif.Group.Walk
/-!
# Properties of groups and of `group_chaining_table`: C40 - C44

`c` says which version of `select64` is used, what fresh memory contains and whether accesses to words that are not completely inside
their array are faults.
-/
namespace SC
open Spec

variable {c : GrpCfg} {hk : HashKind} {bpg qw vw kw : Nat}

/-- the strictest setting: BMI2 is not available, fresh memory has all bits set -/
def grpEx : GrpCfg := ⟨true, fun _ => true, false⟩

/-- calls on a group with 70 buckets -/
def grpExCalls : List GOp :=
  [.push 0 1 2, .push 69 3 4, .push 5 6 7, .push 69 5 6, .push 5 600 9, .write 69 0 9, .erase 5 0, .push 64 1 1]

theorem grpExCalls_valid : Buckets.Valid 70 9 13 Buckets.empty grpExCalls := by
  simp [grpExCalls, Buckets.Valid, GOp.OK, Buckets.step, Buckets.empty]

/-! ## C40 -/

/-- **C40**: after any sequence of calls on a new group, the border is the unary code of the bucket sizes, with `bpg + 1` ones in
`size() + bpg + 1` bits; `find_group_position(g)` gives the position of one number `g`, which is `g` plus the number of entries up to the
end of bucket `g`; hence bucket `g` begins where the entries of the buckets in front of it end. -/
theorem C40_borders (hb : bpg ≤ 255) (hqw : 1 ≤ qw) (hvw : 1 ≤ vw) {ops : List GOp}
    (hv : Buckets.Valid bpg qw vw Buckets.empty ops) (hl : ops.length < 2 ^ 32) :
    ∃ x b, Group.calls c bpg qw vw ops = .ok x ∧ x.border = some b ∧
      b.len = ceilDiv ((Buckets.empty.after qw vw ops).begin bpg + bpg + 1) 64 ∧
      (∀ g ≤ bpg, IsSelect b.bit g ((Buckets.empty.after qw vw ops).begin (g + 1) + g)) ∧
      (∀ g < bpg, x.pos c g = .ok ((Buckets.empty.after qw vw ops).begin (g + 1) + g)) ∧
      (∀ g < bpg, x.start c g = .ok ((Buckets.empty.after qw vw ops).begin g + g)) := by
  obtain ⟨x, h1, h2⟩ := calls_new (c := c) hb hqw hvw hv hl
  obtain ⟨b, b1, b2⟩ := h2.border
  refine ⟨x, b, h1, b1, ?_, ?_, ?_, ?_⟩
  · rw [b2.len, begin_flat]; congr 1; omega
  · intro g hg
    rw [begin_flat, flat_length]; exact b2.sel g hg
  · intro g hg
    rw [begin_flat]; exact h2.pos hb hg
  · intro g hg
    rw [begin_flat]; exact h2.start hb hg

example : ∃ x b, Group.calls grpEx 70 9 13 grpExCalls = .ok x ∧ x.border = some b ∧
    (∀ g < 70, x.pos grpEx g = .ok ((Buckets.empty.after 9 13 grpExCalls).begin (g + 1) + g)) := by
  obtain ⟨x, b, h1, h2, _, _, h3, _⟩ := C40_borders (c := grpEx) (by omega) (by omega) (by omega) grpExCalls_valid (by decide)
  exact ⟨x, b, h1, h2, h3⟩

/-! ## C41 -/

/-- An array with `n` entries as it is after `initialize` or `insert`: there is room for one more entry.  The contents are arbitrary. -/
def CoreShape (b : VarB) (w n : Nat) : Prop := ∃ m : Buf, b = some m ∧ 64 ∣ m.alloc ∧ (n + 1) * w ≤ m.alloc

/-- what can be read from the array -/
def CoreShows (c : GrpCfg) (b : VarB) (w : Nat) (xs : List Nat) : Prop := ∀ i (h : i < xs.length), coreRead c b i w = .ok xs[i]

theorem CoreRep.shape {b : VarB} {w : Nat} {xs : List Nat} (h : CoreRep true b w xs) : CoreShape b w xs.length := by
  obtain ⟨m, h1, h2, _, h4, _⟩ := h
  exact ⟨m, h1, h2, h4 rfl⟩

theorem CoreShape.rep {b : VarB} {w n : Nat} (h : CoreShape b w n) : ∃ xs, xs.length = n ∧ CoreRep true b w xs := by
  obtain ⟨m, rfl, h2, h3⟩ := h
  refine ⟨(List.range n).map (fun i => readBits m.bits (i * w) w), by simp, m, rfl, h2, ?_, ?_, ?_⟩
  · simp only [List.length_map, List.length_range]
    rw [Nat.add_mul] at h3; omega
  · intro _; simpa using h3
  · intro i hi; simp

/-- **C41**, one call: whatever the memory contains, all entries are readable, and `insert`, `erase` and `write` change exactly the entry at
their position; no access leaves the allocated words, and there is room for one more entry afterwards. -/
theorem C41_packed_array {w : Nat} (hw : 1 ≤ w) {b : VarB} {n : Nat} (h : CoreShape b w n) {op : AOp} (hop : op.OK n) :
    ∃ xs b', xs.length = n ∧ CoreShows c b w xs ∧ coreCall c w b n op = .ok (b', (op.apply w xs).length) ∧
      CoreShape b' w (op.apply w xs).length ∧ CoreShows c b' w (op.apply w xs) := by
  obtain ⟨xs, rfl, hr⟩ := h.rep
  obtain ⟨b', e1, e2⟩ := core_step (c := c) hw hr hop
  exact ⟨xs, b', rfl, fun i hi => coreRead_eq hw hr hi, e1, e2.shape, fun i hi => coreRead_eq hw e2 hi⟩

/-- five entries of 13 bits in two words -/
example : CoreShape (some { alloc := 128, bits := fun i => i % 3 == 0 }) 13 5 := ⟨_, rfl, by decide, by decide⟩
example : AOp.OK 5 (.insert 5 77) ∧ AOp.OK 5 (.erase 4) := ⟨Nat.le_refl _, by show 4 < 5; omega⟩

/-- **C41**, histories: a new array, followed by any sequence of calls, has the contents of a list. -/
theorem C41_packed_array_history {w : Nat} (hw : 1 ≤ w) {ops : List AOp} (hv : AOp.Valid w [] ops) :
    ∃ b, coreCalls c w ops = .ok (b, (AOp.after w [] ops).length) ∧ CoreShape b w (AOp.after w [] ops).length ∧
      CoreShows c b w (AOp.after w [] ops) := by
  obtain ⟨b, e1, e2⟩ := core_calls (c := c) hw ops (coreInit w) [] (coreInit_rep true w) hv
  exact ⟨b, e1, e2.shape, fun i hi => coreRead_eq hw e2 hi⟩

example : AOp.Valid 33 [] [.insert 0 1, .insert 0 2, .insert 1 3, .erase 0, .write 1 7, .insert 2 9] := by
  simp [AOp.Valid, AOp.OK, AOp.apply]

/-- **C41**, `find(from, x, to)`: the first match among the entries `from`, ..., `to - 1`. -/
theorem C41_packed_array_find {w : Nat} (hw : 1 ≤ w) (hw2 : w ≤ 64) {b : VarB} {n : Nat} (h : CoreShape b w n) {lo hi : Nat} (h1 : lo < hi)
    (h2 : hi ≤ n) (x : Nat) :
    ∃ xs r, xs.length = n ∧ CoreShows c b w xs ∧ coreFind c b lo x hi w = .ok r ∧
      ((x ∉ (xs.drop lo).take (hi - lo) ∧ r = 2 ^ 64 - 1) ∨
       (∃ i, r = lo + i ∧ i < hi - lo ∧ xs[lo + i]? = some x ∧ ∀ j < i, xs[lo + j]? ≠ some x)) := by
  obtain ⟨xs, rfl, hr⟩ := h.rep
  refine ⟨xs, _, rfl, fun i hi => coreRead_eq hw hr hi, coreFind_eq hw hw2 hr h1 h2 x, ?_⟩
  by_cases hm : x ∈ (xs.drop lo).take (hi - lo)
  · rw [if_pos hm]
    right
    have hl := List.idxOf_lt_length_of_mem hm
    have hlen : ((xs.drop lo).take (hi - lo)).length = hi - lo := by simp; omega
    have hget : ∀ j < hi - lo, ((xs.drop lo).take (hi - lo))[j]? = xs[lo + j]? := by
      intro j hj
      rw [List.getElem?_take_of_lt hj, List.getElem?_drop]
    have hf := posOf_firstMatch ((xs.drop lo).take (hi - lo)) x
    unfold posOf at hf
    rw [if_pos hm] at hf
    rcases hf with ⟨g1, g2, g3⟩ | ⟨g1, _⟩
    · refine ⟨_, rfl, by omega, ?_, ?_⟩
      · rw [← hget _ (by omega), List.getElem?_eq_getElem g1, g2]
      · intro j hj
        rw [← hget _ (by omega), List.getElem?_eq_getElem (by omega)]
        intro he
        exact g3 j hj (Option.some.inj he)
    · exact absurd hm g1
  · rw [if_neg hm]
    exact .inl ⟨hm, rfl⟩

/-! ## C42 -/

/-- everything that can be read from a group -/
structure GroupShows (c : GrpCfg) (x : Group) (bpg qw vw : Nat) (cs : Buckets) : Prop where
  size : x.size = cs.begin bpg
  bucketsize : ∀ g < bpg, x.bucketsize c g = .ok (cs g).length
  key : ∀ g < bpg, ∀ i (h : i < (cs g).length), x.readKey c g i qw = .ok (cs g)[i].1
  value : ∀ g < bpg, ∀ i (h : i < (cs g).length), x.readValue c g i vw = .ok (cs g)[i].2
  find : ∀ g < bpg, ∀ q, ∃ r, x.find c g q qw = .ok r ∧ IsFirstMatch ((cs g).map Prod.fst) q r

theorem GroupRep.shows {sp : Bool} {x : Group} {cs : Buckets} (hb : bpg ≤ 255) (hqw : 1 ≤ qw) (hqw2 : qw ≤ 64) (hvw : 1 ≤ vw)
    (h : GroupRep sp x bpg qw vw cs) : GroupShows c x bpg qw vw cs where
  size := by rw [begin_flat]; exact h.size
  bucketsize := fun g hg => h.bucketsize hb hg
  key := fun g hg i hi => h.readKey hb hqw hg hi
  value := fun g hg i hi => h.readValue hb hvw hg hi
  find := fun g hg q => ⟨_, h.find hb hqw hqw2 hg q, posOf_firstMatch _ _⟩

/-- **C42**: after any sequence of calls on a new group, its contents are what a row of buckets contains after the same operations. -/
theorem C42_group (hb : bpg ≤ 255) (hqw : 1 ≤ qw) (hqw2 : qw ≤ 64) (hvw : 1 ≤ vw) {ops : List GOp}
    (hv : Buckets.Valid bpg qw vw Buckets.empty ops) (hl : ops.length < 2 ^ 32) :
    ∃ x, Group.calls c bpg qw vw ops = .ok x ∧ GroupShows c x bpg qw vw (Buckets.empty.after qw vw ops) := by
  obtain ⟨x, h1, h2⟩ := calls_new (c := c) hb hqw hvw hv hl
  exact ⟨x, h1, h2.shows hb hqw hqw2 hvw⟩

example : ∃ x, Group.calls grpEx 70 9 13 grpExCalls = .ok x ∧ x.bucketsize grpEx 69 = .ok 2 ∧ x.readValue grpEx 69 0 13 = .ok 9 ∧
    x.readKey grpEx 5 0 9 = .ok (600 % 2 ^ 9) := by
  obtain ⟨x, h1, h2⟩ := C42_group (c := grpEx) (by omega) (by omega) (by omega) (by omega) grpExCalls_valid (by decide)
  exact ⟨x, h1, h2.bucketsize 69 (by omega), h2.value 69 (by omega) 0 (by decide), h2.key 5 (by omega) 0 (by decide)⟩

/-! ## C43 -/

/-- `group_chaining_table` with `xorshift_hash`, 11-bit keys and 13-bit values -/
theorem grpExOK : GrpOK (.xorshift 64) 11 13 where
  hash := by simp only [HashKind.Supports]; omega
  vw_pos := by decide
  vw_le := by decide

/-- insertions, an assignment, erasures and a rehash that changes the group size -/
def grpExOps : List MapOp :=
  (List.range 40).map (fun i => .insert (37 * i) (100 * i)) ++
  [.assign 74 7, .erase 111, .erase 1, .shrink, .reserve 32, .get 2047, .find 74, .size]

instance (hk : HashKind) (kw : Nat) (op : MapOp) : Decidable (GrpValid hk kw op) :=
  inferInstanceAs (Decidable (ValidOp _ _ _ _ _))

theorem grpExOps_valid : ∀ op ∈ grpExOps, GrpValid (.xorshift 64) 11 op := by decide +kernel

/-- **C43**: every sequence of calls on a new table runs without fault, terminates, and gives the answers of a finite
map whose values have `vw` bits. -/
theorem C43_group_map_semantics (h : GrpOK hk kw vw) (ops : List MapOp) (hops : ∀ op ∈ ops, GrpValid hk kw op) :
    ∃ t, Tab.run (grpMap c hk) (Tab.new (grpMap c hk) kw vw) ops = .ok (t, FMap.empty.run (fun v => v % 2 ^ vw) ops) :=
  (h.covered (sp := c.strict) id).run ops hops

example : ∃ t, Tab.run (grpMap grpEx (.xorshift 64)) (Tab.new (grpMap grpEx (.xorshift 64)) 11 13) grpExOps =
    .ok (t, FMap.empty.run (fun v => v % 2 ^ 13) grpExOps) := C43_group_map_semantics grpExOK grpExOps grpExOps_valid

/-- 64-bit keys -/
example : GrpOK (.multiplicative 64) 64 64 where
  hash := by simp only [HashKind.Supports]; omega
  vw_pos := by decide
  vw_le := by decide

/-- **C43**, what single calls do, as seen through `find`, `size()` and iterators -/
theorem C43_group_observed (h : GrpOK hk kw vw) {ops : List MapOp} (hops : ∀ op ∈ ops, GrpValid hk kw op)
    {t : Tab GrpStore Unit} (ht : After (grpMap c hk) kw vw ops t) :
    Observed (grpMap c hk) (fun v => v % 2 ^ vw) (hk.lo kw 64) (hk.width kw - 1) kw vw
      (FMap.empty.after (fun v => v % 2 ^ vw) ops) t :=
  (h.covered (sp := c.strict) id).observed ((h.covered (sp := c.strict) id).sem hops ht)

/-- a reachable table has no buckets or is described by `Live` -/
theorem grp_live (h : GrpOK hk kw vw) {ops : List MapOp} (hops : ∀ op ∈ ops, GrpValid hk kw op)
    {t : Tab GrpStore Unit} (ht : After (grpMap c hk) kw vw ops t) :
    (t.tb = 0 ∧ t.elems = 0) ∨ ∃ cont full, Live (grpMap c hk) (grpPar c.strict hk kw vw) t cont [] full := by
  have hc := h.covered (c := c) (sp := c.strict) id
  obtain ⟨l, hs, _⟩ := hc.sem hops ht
  rcases hs with ⟨_, _, _, _, h5, h6, _⟩ | ⟨cont, o, full, hl, _⟩
  · exact .inl ⟨h5, h6⟩
  · have ho : o = [] := hc.noOverflow _ _ _ _ hl.orep
    subst ho
    exact .inr ⟨cont, full, hl⟩

/-- **C43**, the loops over the groups: on every reachable table, `begin()` is the navigator that a search through the buckets gives (on which
the statement about iteration in `C43_group_observed` is based), and `reserve` moves the entries as a loop over the buckets does. -/
theorem C43_group_loops (h : GrpOK hk kw vw) {ops : List MapOp} (hops : ∀ op ∈ ops, GrpValid hk kw op)
    {t : Tab GrpStore Unit} (ht : After (grpMap c hk) kw vw ops t) :
    grpBegin c t = t.beginNav (grpMap c hk) ∧ ∀ n nkw, grpReserve c hk t n nkw = t.reserve (grpMap c hk) n nkw := by
  have L := (h.covered (c := c) (sp := c.strict) id).laws
  rcases grp_live h hops ht with ⟨h5, h6⟩ | ⟨cont, full, hl⟩
  · refine ⟨by simp [grpBegin, grpCount, h5, grpFirst, Tab.beginNav, Tab.bucketCount, Tab.scanUp, grpMap, dummyOverflow], ?_⟩
    intro n nkw
    simp only [grpReserve, Tab.reserve, Tab.reserveWith, h5, if_true]
  · exact ⟨hl.grpBegin L, hl.grpReserve L⟩

/-- the outcome of the history -/
theorem grpExAfter : ∃ t, After (grpMap grpEx (.xorshift 64)) 11 13 grpExOps t ∧ t.bucketCount = 32 ∧ t.size = 40 ∧ t.bpg = 64 := by
  have h : (match Tab.run (grpMap grpEx (.xorshift 64)) (Tab.new (grpMap grpEx (.xorshift 64)) 11 13) grpExOps with
    | .ok (t, _) => t.bucketCount == 32 && t.size == 40 && t.bpg == 64
    | .error _ => false) = true := by decide +kernel
  revert h
  unfold After
  cases Tab.run (grpMap grpEx (.xorshift 64)) (Tab.new (grpMap grpEx (.xorshift 64)) 11 13) grpExOps with
  | error e => intro h; cases h
  | ok r =>
    intro h
    simp only [Bool.and_eq_true, beq_iff_eq] at h
    exact ⟨r.1, ⟨r.2, rfl⟩, h.1.1, h.1.2, h.2⟩

example : ∃ t, After (grpMap grpEx (.xorshift 64)) 11 13 grpExOps t ∧
    Observed (grpMap grpEx (.xorshift 64)) (fun v => v % 2 ^ 13) 1 10 11 13 (FMap.empty.after (fun v => v % 2 ^ 13) grpExOps) t := by
  obtain ⟨t, ht, _⟩ := grpExAfter
  exact ⟨t, ht, C43_group_observed grpExOK grpExOps_valid ht⟩

/-! ## C44 -/

/-- the pairs visited by `for(it = rbegin_nav(); it != rend_nav(); --it)` -/
def grpPairsBack (c : GrpCfg) (hk : HashKind) (t : Tab GrpStore Unit) : Res (List (Nat × Nat)) := do
  let n ← grpRbegin c t
  t.visitBack (grpMap c hk) (t.size + 1) n

/-- **C44** is false, for every reachable table: the loop from `rbegin_nav()` visits nothing. -/
theorem C44_group_backward_false (h : GrpOK hk kw vw) {ops : List MapOp} (hops : ∀ op ∈ ops, GrpValid hk kw op)
    {t : Tab GrpStore Unit} (ht : After (grpMap c hk) kw vw ops t) : grpPairsBack c hk t = .ok [] := by
  have L := (h.covered (c := c) (sp := c.strict) id).laws
  have hend : ∀ n, t.navEq (grpMap c hk) n Nav.end_ = .ok true → t.visitBack (grpMap c hk) (t.size + 1) n = .ok [] := by
    intro n hn
    simp only [Tab.visitBack, hn, ok_bind, if_true, pure_eq_ok]
  rcases grp_live h hops ht with ⟨h5, h6⟩ | ⟨cont, full, hl⟩
  · have hb : t.bucketCount = 0 := by simp [Tab.bucketCount, h5]
    simp only [grpPairsBack, grpRbegin, hb, if_true, pure_eq_ok, ok_bind]
    exact hend _ (navEq_true (by omega) (invalid_end (by omega)))
  · have ho : (grpMap c hk).ov.size t.ovf = 0 := by rw [hl.osize L]; rfl
    by_cases he : t.elems = 0
    · simp only [grpPairsBack, hl.grpRbegin_empty L he, ok_bind]
      exact hend _ (navEq_true (hl.tb_lt L) (invalid_end (hl.tb_lt L)))
    · obtain ⟨b, h1, h2, h3, h4⟩ := hl.grpRbegin L he
      have hsz := L.store.size _ _ _ b (hl.good L) hl.rep h2
      simp only [grpPairsBack, h1, ok_bind]
      refine hend _ (navEq_true (hl.tb_lt L) ?_)
      simp only [Tab.invalid, ho, Nat.lt_irrefl, false_and, if_false, hl.bc L, if_neg (Nat.not_le.mpr h2), hsz, ok_bind, Nat.le_refl,
        decide_true, pure_eq_ok]

/-- a table with 40 pairs, none of which is visited -/
example : ∃ t, After (grpMap grpEx (.xorshift 64)) 11 13 grpExOps t ∧ t.size = 40 ∧ grpPairsBack grpEx (.xorshift 64) t = .ok [] := by
  obtain ⟨t, ht, _, h2, _⟩ := grpExAfter
  exact ⟨t, ht, h2, C44_group_backward_false grpExOK grpExOps_valid ht⟩

/-- **C44**, negation of the property -/
theorem C44_group_backward_not :
    ¬ ∀ (ops : List MapOp) (t : Tab GrpStore Unit), (∀ op ∈ ops, GrpValid (.xorshift 64) 11 op) →
      After (grpMap grpEx (.xorshift 64)) 11 13 ops t → t.size ≠ 0 →
      ∃ l l', t.pairs (grpMap grpEx (.xorshift 64)) = .ok l ∧ grpPairsBack grpEx (.xorshift 64) t = .ok l' ∧ l'.Perm l := by
  intro hall
  obtain ⟨t, ht, _, h2, _⟩ := grpExAfter
  obtain ⟨l, l', e1, e2, e3⟩ := hall _ t grpExOps_valid ht (by omega)
  rw [C44_group_backward_false grpExOK grpExOps_valid ht] at e2
  cases e2
  have hl : l = [] := List.nil_perm.mp e3
  obtain ⟨_, ⟨l2, f1, f2⟩, _⟩ := (C43_group_observed grpExOK grpExOps_valid ht).size.2
  rw [e1] at f1
  cases f1
  rw [hl, h2] at f2
  cases f2

/-- The part of **C44** that holds: `--rbegin_nav()` is the last pair; a loop that starts there visits all pairs in reverse order.  Missing:
the loop that starts at `rbegin_nav()`. -/
theorem C44_group_backward_partial (h : GrpOK hk kw vw) {ops : List MapOp} (hops : ∀ op ∈ ops, GrpValid hk kw op)
    {t : Tab GrpStore Unit} (ht : After (grpMap c hk) kw vw ops t) (hne : t.size ≠ 0) :
    ∃ n n' l, grpRbegin c t = .ok n ∧ t.prev (grpMap c hk) n = .ok n' ∧ t.pairs (grpMap c hk) = .ok l ∧
      t.visitBack (grpMap c hk) (t.size + 1) n' = .ok l.reverse := by
  have L := (h.covered (c := c) (sp := c.strict) id).laws
  rcases grp_live h hops ht with ⟨h5, h6⟩ | ⟨cont, full, hl⟩
  · exact absurd h6 hne
  · obtain ⟨b, h1, h2, h3, h4⟩ := hl.grpRbegin L hne
    have hpos : 0 < (cont b).length := List.length_pos_iff.mpr h3
    have ho : (grpMap c hk).ov.size t.ovf = 0 := by rw [hl.osize L]; rfl
    have hsz := L.store.size _ _ _ b (hl.good L) hl.rep h2
    obtain ⟨n, g1, g2⟩ := hl.visit_begin L (show t.elems < t.size + 1 by simp [Tab.size])
    obtain ⟨b', i', r1, r2, r3, r4, r5⟩ := hl.rbegin L hne
    have hbb : b' = b := by
      rcases Nat.lt_trichotomy b' b with hlt | heq | hgt
      · exact absurd (r4 b hlt h2) h3
      · exact heq
      · have := h4 b' hgt r2
        rw [this] at r3; simp at r3
    subst hbb
    refine ⟨_, ⟨b', i'⟩, stored ((grpMap c hk).hash kw) t.tb cont, h1, ?_, by simp only [Tab.pairs, g1, ok_bind, g2]; rfl, ?_⟩
    · simp only [Tab.prev, ho, Nat.lt_irrefl, false_and, if_false, if_pos hpos, hsz, ok_bind, Nat.min_self, pure_eq_ok]
      rw [← r3]; rfl
    · have := visitBack_ok L hl (t.size + 1) b' i' h2 (by omega) (by
        rw [r5]
        have : t.elems = (stored ((grpMap c hk).hash kw) t.tb cont).length := by rw [hl.elems]; simp [ents]; rfl
        show (stored ((grpMap c hk).hash kw) t.tb cont).length < _
        simp only [Tab.size]; omega)
      rw [this, r5]; rfl

end SC
