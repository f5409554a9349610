import Verif.Table.Crowd
import Verif.Props.FileSize
/-!
# Few keys can make a table as large as any history can: C116
-/
namespace SC

variable {KB VB : Type} {p : SepCfg KB VB} {hk : HashKind} {tr : Nat → Nat → Nat} {W kw vw : Nat}

/-- what a map holds after insertions of different keys -/
theorem after_distinct {f : Nat → Nat} {v : Nat → Nat} : ∀ (ks : List Nat) (m : FMap), ks.Nodup → (∀ k ∈ ks, m.get k = none) →
    (m.after f (ks.map (fun k => .insert k (v k)))).size = m.size + ks.length ∧
    (∀ k ∈ ks, (m.after f (ks.map (fun k => .insert k (v k)))).get k ≠ none) ∧
    ∀ k, m.get k ≠ none → (m.after f (ks.map (fun k => .insert k (v k)))).get k ≠ none := by
  intro ks
  induction ks with
  | nil => intro m _ _; exact ⟨rfl, by simp, fun k h => h⟩
  | cons a ks ih =>
    intro m hn hm
    have ha := hm a (by simp)
    rw [List.nodup_cons] at hn
    have e : (m.step f (.insert a (v a))).1 = m.put a (f (v a)) := by simp only [FMap.step, ha]
    obtain ⟨h1, h2, h3⟩ := ih (m.put a (f (v a))) hn.2 (fun k hk => by
      simp only [FMap.put]
      rw [if_neg (by rintro rfl; exact hn.1 hk)]
      exact hm k (by simp [hk]))
    rw [List.map_cons, FMap.after, e]
    refine ⟨?_, ?_, ?_⟩
    · rw [h1, List.length_cons]
      simp only [FMap.put, ha, Option.isSome_none, Bool.false_eq_true, if_false]
      omega
    · intro k hk
      rcases List.mem_cons.mp hk with rfl | hk
      · exact h3 _ (by simp [FMap.put])
      · exact h2 k hk
    · intro k hk
      refine h3 k ?_
      simp only [FMap.put]
      split
      · simp
      · exact hk

theorem bucketCount_of {S O : Type} {t : Tab S O} {s : Nat} (h : t.tb ≠ 0 ∧ s < t.tb) : 2 ^ (s + 1) ≤ t.bucketCount := by
  unfold Tab.bucketCount
  rw [if_neg h.1]
  exact Nat.pow_le_pow_right (by omega) h.2

/-- **C116**: if more than `max_bucket_size()` stored keys fall into one of `2^s` buckets, the table has more buckets. -/
theorem C116_separate_crowd (h : SepOK p hk tr W kw vw) {t : Tab (SepStore KB VB) Unit} {m : FMap} (ht : SepReach p hk tr W kw vw t m)
    {ks : List Nat} (hn : ks.Nodup) (hm : ∀ k ∈ ks, k < 2 ^ kw ∧ m.get k ≠ none) (hl : p.maxSize < ks.length) {s b : Nat} (hs : s < 64)
    (hb : ∀ k ∈ ks, ∃ q, (hk.mapping kw).map k s = .ok (q, b)) : 2 ^ (s + 1) ≤ t.bucketCount := by
  obtain ⟨P, hP⟩ := h.par false
  have hS := h.hash
  have h3 : 3 ≤ kw ∧ kw ≤ 64 := by cases hk <;> exact ⟨hS.1, hS.2.1⟩
  have ekw : P.kw = kw := by obtain ⟨_, _, rfl⟩ := hP.par; rfl
  obtain ⟨KRep, VRep, hrep⟩ := hP.rep
  refine bucketCount_of (Sem.crowd hP.laws hP.noOverflow (M := p.maxSize) (fun s d c b hR _ hb => ((hrep s d c hR).bkt b hb).le) (ht.sem hP) hn
    (by rw [ekw]; exact hm) hl (s := s) (b := b) (fun k hk' tb h1 h2 => ?_))
  obtain ⟨q, hq⟩ := hb k hk'
  rw [ekw]
  exact HashKind.coarse (kw := kw) (by omega) (hm k hk').1 h1 h2 hs hq

/-- **C116**: `max_bucket_size() + 1` insertions suffice for the largest number of buckets of C111. -/
theorem C116_separate_attack (h : SepOK p hk tr W kw vw) (hq : hk.quotienting) (hw : 4 ≤ kw - Nat.log2 p.maxSize) :
    ∃ ks : List Nat, ks.length = p.maxSize + 1 ∧ ks.Nodup ∧ (∀ k ∈ ks, k < 2 ^ kw) ∧ ∀ v : Nat → Nat, ∃ t,
      SepAfter p hk kw vw (ks.map (fun k => .insert k (v k))) t ∧ t.size = p.maxSize + 1 ∧ t.bucketCount = 2 ^ (kw - Nat.log2 p.maxSize) := by
  have hS := h.hash
  have h3 : 3 ≤ kw ∧ kw ≤ 64 := by cases hk <;> exact ⟨hS.1, hS.2.1⟩
  have hwd : hk.width kw = kw := by cases hk <;> first | exact hq.elim | rfl
  have hM : p.maxSize < 2 ^ (Nat.log2 p.maxSize + 1) := Nat.lt_log2_self
  obtain ⟨ks, h1, h2, h4⟩ := HashKind.collide (hk := hk) (kw := kw) (s := kw - Nat.log2 p.maxSize - 1) (n := p.maxSize + 1)
    (by rintro rfl; exact hq) (by omega) (by omega) (by omega) (by rw [show kw - (kw - Nat.log2 p.maxSize - 1) = Nat.log2 p.maxSize + 1 by omega]; omega)
  refine ⟨ks, h1, h2, fun k hk' => (h4 k hk').1, fun v => ?_⟩
  have hops : ∀ op ∈ ks.map (fun k => MapOp.insert k (v k)), SepValid hk W kw op := by
    intro op hop
    obtain ⟨k, hk', rfl⟩ := List.mem_map.mp hop
    exact ⟨(h4 k hk').1, trivial⟩
  obtain ⟨t, ht⟩ := C15_separate_map_semantics h _ hops
  obtain ⟨g1, g2, _⟩ := after_distinct (f := tr vw) (v := v) ks FMap.empty h2 (fun _ _ => rfl)
  have hr : SepReach p hk tr W kw vw t _ := SepReach.new.run hops ht
  refine ⟨t, ⟨_, ht⟩, ?_, Nat.le_antisymm ?_ ?_⟩
  · obtain ⟨P, hP⟩ := h.par false
    have := (hr.sem hP).size
    rw [this, g1, h1]
    exact Nat.zero_add _
  · have := C111_separate_buckets h hops ⟨_, ht⟩ (N := 0) (fun m hm => by simp at hm)
    rw [hwd] at this
    have : 2 ^ 4 ≤ 2 ^ (kw - Nat.log2 p.maxSize) := Nat.pow_le_pow_right (by omega) hw
    have := Nat.two_pow_pos (kw - Nat.log2 p.maxSize)
    omega
  · have := C116_separate_crowd h hr h2 (fun k hk' => ⟨(h4 k hk').1, g2 k hk'⟩) (by omega) (s := kw - Nat.log2 p.maxSize - 1) (b := 0) (by omega)
      (fun k hk' => (h4 k hk').2)
    rwa [show kw - Nat.log2 p.maxSize - 1 + 1 = kw - Nat.log2 p.maxSize by omega] at this

/-- four keys of 10 bits make a table with `SEPARATE_MAX_BUCKET_SIZE` = 3 allocate 512 buckets -/
example : ∃ ks : List Nat, ks.length = 4 ∧ ∃ t, SepAfter exCfg (.xorshift 16) 10 20 (ks.map (fun k => .insert k k)) t ∧ t.size = 4 ∧ t.bucketCount = 512 := by
  obtain ⟨ks, h1, _, _, h4⟩ := C116_separate_attack exOK trivial (by decide)
  obtain ⟨t, h5, h6, h7⟩ := h4 id
  exact ⟨ks, h1, t, h5, h6, h7⟩

/-- `separate_chaining_map<plain_bucket<uint32_t>, plain_bucket<uint32_t>, xorshift_hash<uint32_t, uint32_t>>` -/
def crowdCfg : SepCfg PlainB PlainB := { kops := plainOps 32, vops := plainOps 32, strat := .incremental, maxBucket := 255 }

theorem crowdOK : SepOK crowdCfg (.xorshift 32) (fun _ v => v % 2 ^ 32) 32 32 32 where
  keys := .plain (by simp)
  vals := .plain (by simp)
  hash := by simp only [HashKind.Supports]; omega
  vw_pos := by decide
  vw_le := by decide
  max := by decide

/-- 256 keys of 32 bits make it allocate 33554432 buckets -/
example : ∃ ks : List Nat, ks.length = 256 ∧ ∃ t, SepAfter crowdCfg (.xorshift 32) 32 32 (ks.map (fun k => .insert k k)) t ∧ t.size = 256 ∧
    t.bucketCount = 33554432 := by
  obtain ⟨ks, h1, _, _, h4⟩ := C116_separate_attack crowdOK trivial (by decide)
  obtain ⟨t, h5, h6, h7⟩ := h4 id
  exact ⟨ks, h1, t, h5, h6, h7⟩

/-- **C116** for `compact_chaining_map`: 256 keys that fall into one of `2^s` buckets -/
theorem C116_compact_crowd {c : VarCfg} (h : CmpOK c hk kw vw) {ops : List MapOp} (hops : ∀ op ∈ ops, CmpValid hk kw op)
    {t : Tab CmpStore Unit} (ht : After (cmpMap c hk) kw vw ops t) {ks : List Nat} (hn : ks.Nodup)
    (hm : ∀ k ∈ ks, k < 2 ^ kw ∧ (FMap.empty.after (fun v => v % 2 ^ vw) ops).get k ≠ none) (hl : 255 < ks.length) {s b : Nat} (hs : s < 64)
    (hb : ∀ k ∈ ks, ∃ q, (hk.mapping kw).map k s = .ok (q, b)) : 2 ^ (s + 1) ≤ t.bucketCount := by
  have hC := h.covered
  have hS := h.hash
  have h3 : 3 ≤ kw ∧ kw ≤ 64 := by cases hk <;> exact ⟨hS.1, hS.2.1⟩
  refine bucketCount_of (Sem.crowd hC.laws hC.noOverflow (M := 255) (fun s d c b hR _ hb => ((show CmpRep _ s d c from hR).bkt b hb).le)
    (hC.sem hops ht) hn hm hl (s := s) (b := b) (fun k hk' tb h1 h2 => ?_))
  obtain ⟨q, hq⟩ := hb k hk'
  exact HashKind.coarse (kw := kw) (by omega) (hm k hk').1 h1 h2 hs hq

/-- **C116** for `compact_chaining_map`: 256 insertions -/
theorem C116_compact_attack {c : VarCfg} (h : CmpOK c hk kw vw) (hq : hk.quotienting) (hw : 11 ≤ kw) :
    ∃ ks : List Nat, ks.length = 256 ∧ ks.Nodup ∧ (∀ k ∈ ks, k < 2 ^ kw) ∧ ∀ v : Nat → Nat, ∃ t,
      After (cmpMap c hk) kw vw (ks.map (fun k => .insert k (v k))) t ∧ t.size = 256 ∧ t.bucketCount = 2 ^ (kw - 7) := by
  have hS := h.hash
  have h3 : 3 ≤ kw ∧ kw ≤ 64 := by cases hk <;> exact ⟨hS.1, hS.2.1⟩
  have hwd : hk.width kw = kw := by cases hk <;> first | exact hq.elim | rfl
  obtain ⟨ks, h1, h2, h4⟩ := HashKind.collide (hk := hk) (kw := kw) (s := kw - 8) (n := 256)
    (by rintro rfl; exact hq) (by omega) (by omega) (by omega) (by rw [show kw - (kw - 8) = 8 by omega])
  refine ⟨ks, h1, h2, fun k hk' => (h4 k hk').1, fun v => ?_⟩
  have hops : ∀ op ∈ ks.map (fun k => MapOp.insert k (v k)), CmpValid hk kw op := by
    intro op hop
    obtain ⟨k, hk', rfl⟩ := List.mem_map.mp hop
    exact ⟨(h4 k hk').1, trivial⟩
  obtain ⟨t, ht⟩ := C37_compact_map_semantics h _ hops
  obtain ⟨g1, g2, _⟩ := after_distinct (f := fun v => v % 2 ^ vw) (v := v) ks FMap.empty h2 (fun _ _ => rfl)
  refine ⟨t, ⟨_, ht⟩, ?_, Nat.le_antisymm ?_ ?_⟩
  · have := (h.covered.sem hops ⟨_, ht⟩).size
    rw [this, g1, h1]
    rfl
  · have := C111_compact_buckets h hops ⟨_, ht⟩ (N := 0) (fun m hm => by simp at hm)
    rw [hwd] at this
    have : 2 ^ 4 ≤ 2 ^ (kw - 7) := Nat.pow_le_pow_right (by omega) (by omega)
    have := Nat.two_pow_pos (kw - 7)
    omega
  · have := C116_compact_crowd h hops ⟨_, ht⟩ h2 (fun k hk' => ⟨(h4 k hk').1, g2 k hk'⟩) (by omega) (s := kw - 8) (b := 0) (by omega)
      (fun k hk' => (h4 k hk').2)
    rwa [show kw - 8 + 1 = kw - 7 by omega] at this

example : ∃ ks : List Nat, ks.length = 256 ∧ ∃ t, After (cmpMap cmpEx (.xorshift 64)) 11 13 (ks.map (fun k => .insert k k)) t ∧ t.size = 256 ∧
    t.bucketCount = 16 := by
  obtain ⟨ks, h1, _, _, h4⟩ := C116_compact_attack cmpExOK trivial (by decide)
  obtain ⟨t, h5, h6, h7⟩ := h4 id
  exact ⟨ks, h1, t, h5, h6, h7⟩

/-- a bucket holds at most as many elements as a group -/
theorem GrpRep.bucket_le {sp : Bool} {s : GrpStore} {d : Dim} {c : Cont} (hR : GrpRep sp s d c) (h1 : 1 ≤ d.bpg) {b : Nat} (hb : b < 2 ^ d.tb) :
    (c b).length ≤ 255 := by
  obtain ⟨_, h2⟩ := div_mod_bpg (b := b) h1
  have h3 := (hR.grp (b / d.bpg) (by rw [hR.n]; exact Nat.lt_succ_of_le (Nat.div_le_div_right (Nat.le_of_lt hb)))).size.2
  rw [flat_length] at h3
  have h4 := pre_mono (fun g => (localCont d.bpg c (b / d.bpg) g).length) (a := b % d.bpg + 1) (b := d.bpg) h2
  simp only [pre] at h4
  rw [local_at h1] at h4
  omega

/-- **C116** for `group_chaining_table`: 256 keys that fall into one of `2^s` buckets -/
theorem C116_group_crowd {c : GrpCfg} (h : GrpOK hk kw vw) {t : Tab GrpStore Unit} {m : FMap} (ht : GrpReach c hk kw vw t m) {ks : List Nat}
    (hn : ks.Nodup) (hm : ∀ k ∈ ks, k < 2 ^ kw ∧ m.get k ≠ none) (hl : 255 < ks.length) {s b : Nat} (hs : s < 64)
    (hb : ∀ k ∈ ks, ∃ q, (hk.mapping kw).map k s = .ok (q, b)) : 2 ^ (s + 1) ≤ t.bucketCount := by
  have hS := h.hash
  have h3 : 3 ≤ kw ∧ kw ≤ 64 := by cases hk <;> exact ⟨hS.1, hS.2.1⟩
  have hC := h.coveredE (c := c) (e := c.flat) (sp := false) (by simp)
  refine bucketCount_of (Sem.crowd hC.laws hC.noOverflow (M := 255) (fun s d c b hR h1 hb => GrpRep.bucket_le (sp := false) hR h1 hb)
    (ht.sem h) hn hm hl (s := s) (b := b) (fun k hk' tb h1 h2 => ?_))
  obtain ⟨q, hq⟩ := hb k hk'
  exact HashKind.coarse (kw := kw) (by omega) (hm k hk').1 h1 h2 hs hq

/-- **C116** for `group_chaining_table`: 256 insertions give at least `2^(kw-7)` buckets -/
theorem C116_group_attack {c : GrpCfg} (h : GrpOK hk kw vw) (hq : hk.quotienting) (hw : 8 ≤ kw) :
    ∃ ks : List Nat, ks.length = 256 ∧ ks.Nodup ∧ (∀ k ∈ ks, k < 2 ^ kw) ∧ ∀ v : Nat → Nat, ∃ t,
      After (grpMap c hk) kw vw (ks.map (fun k => .insert k (v k))) t ∧ t.size = 256 ∧ 2 ^ (kw - 7) ≤ t.bucketCount := by
  have hS := h.hash
  have h3 : 3 ≤ kw ∧ kw ≤ 64 := by cases hk <;> exact ⟨hS.1, hS.2.1⟩
  obtain ⟨ks, h1, h2, h4⟩ := HashKind.collide (hk := hk) (kw := kw) (s := kw - 8) (n := 256)
    (by rintro rfl; exact hq) (by omega) (by omega) (by omega) (by rw [show kw - (kw - 8) = 8 by omega])
  refine ⟨ks, h1, h2, fun k hk' => (h4 k hk').1, fun v => ?_⟩
  have hops : ∀ op ∈ ks.map (fun k => MapOp.insert k (v k)), GrpValid hk kw op := by
    intro op hop
    obtain ⟨k, hk', rfl⟩ := List.mem_map.mp hop
    exact ⟨(h4 k hk').1, trivial⟩
  obtain ⟨t, ht⟩ := C43_group_map_semantics (c := c) h _ hops
  obtain ⟨g1, g2, _⟩ := after_distinct (f := fun v => v % 2 ^ vw) (v := v) ks FMap.empty h2 (fun _ _ => rfl)
  have hr : GrpReach c hk kw vw t _ := GrpReach.new.run hops ht
  refine ⟨t, ⟨_, ht⟩, ?_, ?_⟩
  · have := (hr.sem h).size
    rw [this, g1, h1]
    rfl
  · have := C116_group_crowd h hr h2 (fun k hk' => ⟨(h4 k hk').1, g2 k hk'⟩) (by omega) (s := kw - 8) (b := 0) (by omega)
      (fun k hk' => (h4 k hk').2)
    rwa [show kw - 8 + 1 = kw - 7 by omega] at this

/-- 64-bit keys: `2^57` buckets -/
theorem crowdGrpOK : GrpOK (.multiplicative 64) 64 64 where
  hash := by simp only [HashKind.Supports]; omega
  vw_pos := by decide
  vw_le := by decide

example : ∃ ks : List Nat, ks.length = 256 ∧ ∃ t, After (grpMap grpEx (.multiplicative 64)) 64 64 (ks.map (fun k => .insert k k)) t ∧ t.size = 256 ∧
    2 ^ 57 ≤ t.bucketCount := by
  obtain ⟨ks, h1, _, _, h4⟩ := C116_group_attack (c := grpEx) crowdGrpOK trivial (by decide)
  obtain ⟨t, h5, h6, h7⟩ := h4 id
  exact ⟨ks, h1, t, h5, h6, h7⟩

end SC
