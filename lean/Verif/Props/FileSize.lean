import Verif.Props.Format
import Verif.Props.Limits
import Verif.Props.Table
import Verif.Props.Compact
import Verif.Props.Group
import Verif.Table.Buckets
/-!
# Properties of the number of buckets and the size of files: C111, C112
-/
namespace SC

variable {KB VB : Type} {p : SepCfg KB VB} {hk : HashKind} {tr : Nat → Nat → Nat} {W kw vw : Nat} {fk fv : Fmt}

/-! ## C111 -/

theorem pow_ini_le {n I j : Nat} (hn : 1 ≤ n) (h0 : 1 ≤ I) (hI : I ≤ 2 ^ j) : 2 ^ ceilLog (min n I) ≤ 2 ^ j :=
  Nat.pow_le_pow_right (by omega) ((ceilLog_le_iff (by omega)).mpr (by omega))

/-- **C111**: the number of buckets after any history, `separate_chaining_table`. -/
theorem C111_separate_buckets (h : SepOK p hk tr W kw vw) {ops : List MapOp} (hops : ∀ op ∈ ops, SepValid hk W kw op)
    {t : Tab (SepStore KB VB) Unit} (ht : SepAfter p hk kw vw ops t) {N : Nat} (hN : ReserveAtMost (2 ^ N) ops) :
    t.bucketCount ≤ max (max 16 (2 ^ (hk.width kw - Nat.log2 p.maxSize))) (2 ^ N) := by
  obtain ⟨P, hP⟩ := h.par true
  obtain ⟨as, hrun⟩ := ht
  have hS := h.hash
  have h3 : 3 ≤ kw ∧ kw ≤ 64 := by cases hk <;> exact ⟨hS.1, hS.2.1⟩
  have hw : hk.width kw - 1 < 64 := by cases hk <;> simp [HashKind.width] <;> omega
  have hops' : ∀ op ∈ ops, OpOK P op := fun op hop => hP.opOK (hops op hop)
  obtain ⟨KRep, VRep, rfl⟩ := hP.par
  have key := fact_buckets hP.laws hP.grow65 hops' hops hw hN hrun
  have e : (2 : Nat) ^ sepIni kw ≤ 2 ^ 4 := pow_ini_le (n := kw - 1) (I := 16) (j := 4) (by omega) (by omega) (by omega)
  simp only [sepPar, HashKind.grow, Nat.div_one] at key
  omega

/-- **C111**: the number of buckets after any history, `compact_chaining_map`. -/
theorem C111_compact_buckets {c : VarCfg} (h : CmpOK c hk kw vw) {ops : List MapOp} (hops : ∀ op ∈ ops, CmpValid hk kw op)
    {t : Tab CmpStore Unit} (ht : After (cmpMap c hk) kw vw ops t) {N : Nat} (hN : ReserveAtMost (2 ^ N) ops) :
    t.bucketCount ≤ max (max 16 (2 ^ (hk.width kw - 7))) (2 ^ N) := by
  obtain ⟨as, hrun⟩ := ht
  have hS := h.hash
  have h3 : 3 ≤ kw ∧ kw ≤ 64 := by cases hk <;> exact ⟨hS.1, hS.2.1⟩
  have hw : hk.width kw - 1 < 64 := by cases hk <;> simp [HashKind.width] <;> omega
  have hC := h.covered
  have hops' : ∀ op ∈ ops, OpOK (cmpPar c hk kw vw) op := fun op hop => hC.opOK (hops op hop)
  have key := fact_buckets hC.laws hC.grow65 hops' hops hw hN hrun
  have e : (2 : Nat) ^ sepIni kw ≤ 2 ^ 4 := pow_ini_le (n := kw - 1) (I := 16) (j := 4) (by omega) (by omega) (by omega)
  have e2 : Nat.log2 255 = 7 := by decide
  simp only [cmpPar, HashKind.grow, Nat.div_one, e2] at key
  omega

/-- **C111**: the number of buckets after any history, `group_chaining_table`.  Two keys may be left for each bucket. -/
theorem C111_group_buckets {c : GrpCfg} (h : GrpOK hk kw vw) {ops : List MapOp} (hops : ∀ op ∈ ops, GrpValid hk kw op)
    {t : Tab GrpStore Unit} (ht : After (grpMap c hk) kw vw ops t) {N : Nat} (hN : ReserveAtMost (2 ^ N) ops) :
    t.bucketCount ≤ max (max 8 (2 ^ (hk.width kw - 1))) (2 ^ N) := by
  obtain ⟨as, hrun⟩ := ht
  have hS := h.hash
  have h3 : 3 ≤ kw ∧ kw ≤ 64 := by cases hk <;> exact ⟨hS.1, hS.2.1⟩
  have hw : hk.width kw - 1 < 64 := by cases hk <;> simp [HashKind.width] <;> omega
  have hC := h.covered (c := c) (sp := c.strict) id
  have hops' : ∀ op ∈ ops, OpOK (grpPar c.strict hk kw vw) op := fun op hop => hC.opOK (hops op hop)
  have key := fact_buckets hC.laws hC.grow65 hops' hops hw hN hrun
  have e : (2 : Nat) ^ grpIni kw ≤ 2 ^ 3 := pow_ini_le (n := kw - 1) (I := 8) (j := 3) (by omega) (by omega) (by omega)
  have e2 : Nat.log2 (255 / 64) = 1 := by decide
  simp only [grpPar, HashKind.grow, e2] at key
  omega

/-- 5000 calls with 20-bit keys: 16 buckets, at most `2^13`, at most `2^10` for the requests -/
example : ∃ ops : List MapOp, (∀ op ∈ ops, SepValid (.xorshift 64) 64 20 op) ∧ ReserveAtMost (2 ^ 10) ops ∧ ops.length = 5000 := by
  refine ⟨.reserve 1000 :: (List.range 4999).map (fun i => .insert (i * 7) i), ?_, ?_, by simp⟩
  · intro op hop
    rcases List.mem_cons.mp hop with rfl | hop
    · exact ⟨by decide, by decide, by decide⟩
    · obtain ⟨i, hi, rfl⟩ := List.mem_map.mp hop
      have := List.mem_range.mp hi
      exact ⟨by omega, trivial⟩
  · intro m hm
    rcases List.mem_cons.mp hm with h | h
    · cases h; decide
    · obtain ⟨i, _, hi⟩ := List.mem_map.mp h
      cases hi

/-! ## C112 -/

/-- `n` entries of width `w` take `s n` bytes -/
def Fmt.Size (f : Fmt) (w : Nat) (s : Nat → Nat) : Prop := ∀ xs bytes, f w xs bytes → bytes.length = s xs.length

theorem fixedFmt_size (a w : Nat) : (fixedFmt a).Size w (fun n => n * a) := by
  intro xs bytes h
  rw [show bytes = _ from h]
  clear h
  induction xs with
  | nil => simp
  | cons x xs ih =>
    rw [List.flatMap_cons, List.length_append, ih, toBytes_length, List.length_cons]
    show a + xs.length * a = (xs.length + 1) * a
    rw [Nat.succ_mul]; omega

theorem packedFmt_size (sb w : Nat) : (packedFmt sb).Size w (fun n => sb / 8 * ceilDiv (n * w) sb) := fun _ _ h => h.1

theorem noFmt_size (w : Nat) : noFmt.Size w (fun _ => 0) := by
  intro xs bytes h
  rw [show bytes = [] from h]; rfl

theorem blocks_size {H : HashMapping} {tb : Nat} {sk sv : Nat → Nat} (hk : fk.Size (H.remainderWidth tb) sk) (hv : fv.Size vw sv)
    (h0 : sk 0 = 0) (h0' : sv 0 = 0) {b : Nat} {rows : List (List (Nat × Nat))} {bytes : List Nat} (h : Blocks H tb vw fk fv b rows bytes) :
    bytes.length = ((rows.map List.length).map (fun n => sk n + sv n)).sum := by
  induction h with
  | nil => rfl
  | empty _ ih => simp only [List.map_cons, List.length_nil, List.sum_cons, h0, h0', ih]; omega
  | @block b row qs rows kb vb bytes _ hm h1 h2 _ ih =>
    have hl : row.length = qs.length := by
      have := congrArg List.length hm
      simpa using this
    have e1 := hk _ _ h1
    have e2 := hv _ _ h2
    rw [List.length_map] at e2
    rw [List.length_append, List.length_append, ih, e1, e2, ← hl]
    simp only [List.map_cons, List.sum_cons]

theorem mapM_comp {α β γ δ : Type} {f : α → Res β} {a : β → γ} (k : γ → δ) : ∀ (l : List α) {xs : List γ} {ys : List δ},
    l.mapM (fun b => do let x ← f b; return a x) = .ok xs → l.mapM (fun b => do let x ← f b; return k (a x)) = .ok ys → ys = xs.map k
  | [], _, _, h1, h2 => by cases h1; cases h2; rfl
  | b :: l, xs, ys, h1, h2 => by
    rw [List.mapM_cons] at h1 h2
    obtain ⟨x, e1, h1⟩ := bind_eq_ok h1
    obtain ⟨xs', e2, h1⟩ := bind_eq_ok h1
    obtain ⟨y, e3, h2⟩ := bind_eq_ok h2
    obtain ⟨ys', e4, h2⟩ := bind_eq_ok h2
    obtain ⟨u, e5, e1⟩ := bind_eq_ok e1
    rw [e5] at e3
    cases h1; cases h2; cases e1; cases e3
    rw [List.map_cons, mapM_comp k l e2 e4]

/-- the sizes of the buckets -/
theorem sem_sizes {tight : Bool} {P : Par (SepStore KB VB) Unit} (hP : SepParOK p hk tr W kw vw tight P)
    {t : Tab (SepStore KB VB) Unit} {m : FMap} (h : Sem (sepMap p hk) P t m) :
    ∃ ns, sepBucketSizes t = .ok ns ∧ ns.length = t.bucketCount ∧
      (∀ n ∈ ns, n ≤ p.maxSize ∧ n ≤ 2 ^ (hk.mapping kw).remainderWidth t.tb) ∧ ns.sum = t.size := by
  obtain ⟨KRep, VRep, hrep⟩ := hP.rep
  have ekw : P.kw = kw := by obtain ⟨_, _, rfl⟩ := hP.par; rfl
  rcases sem_cases hP h with ⟨h1, h2⟩ | ⟨c, full, hl⟩
  · refine ⟨[], ?_, by simp [Tab.bucketCount, h1], by simp, by simp [h2]⟩
    simp only [sepBucketSizes, Tab.bucketCount, h1, if_true]; rfl
  · have hr := hrep _ _ _ hl.rep
    have hbc := hl.bc hP.laws
    refine ⟨(List.range (2 ^ t.tb)).map (fun b => (c b).length), ?_, by simp [hbc], ?_, hl.size_sum.symm⟩
    · unfold sepBucketSizes
      rw [hbc]
      apply mapM_ok
      intro b hb
      have hb : b < 2 ^ t.tb := by simpa using hb
      rw [hr.get (b := b) hb, ok_bind, pure_eq_ok, (hr.bkt b hb).size]
    · intro n hn
      obtain ⟨b, hb, rfl⟩ := List.mem_map.mp hn
      have hb : b < 2 ^ t.tb := by simpa using hb
      refine ⟨(hr.bkt b hb).le, ?_⟩
      have := nodup_length_le (2 ^ (hk.mapping P.kw).remainderWidth t.tb) ((c b).map Prod.fst) (hl.cok.nodup b hb) (fun q hq => by
        obtain ⟨e, he, rfl⟩ := List.mem_map.mp hq
        exact (map_of_mem (hP.laws.mapping _ hl.lo hl.hi) hl.cok hb he).2.2.2)
      rw [ekw] at this
      simpa using this

/-- **C112**: the file has 11 bytes, one byte for each bucket and what the keys and the values of the buckets take. -/
theorem C112_separate_file_size (h : SepOK p hk tr W kw vw) (hf : KeyFmt KB p.kops W fk) (hf' : ValueFmt VB p.vops tr fv)
    {t : Tab (SepStore KB VB) Unit} {m : FMap} (ht : SepReach p hk tr W kw vw t m) {sk sv : Nat → Nat}
    (hs : fk.Size ((hk.mapping kw).remainderWidth t.tb) sk) (hs' : fv.Size vw sv) (h0 : sk 0 = 0) (h0' : sv 0 = 0) :
    ∃ bytes ns, p.serialize hk t = .ok bytes ∧ sepBucketSizes t = .ok ns ∧ ns.length = t.bucketCount ∧ ns.sum = t.size ∧
      (∀ n ∈ ns, n ≤ p.maxSize ∧ n ≤ 2 ^ (hk.mapping kw).remainderWidth t.tb) ∧
      bytes.length = 11 + t.bucketCount + (ns.map (fun n => sk n + sv n)).sum := by
  obtain ⟨bytes, rows, h1, _, h3, _, body, h4, h5⟩ := C92_separate_format h hf hf' ht
  obtain ⟨P, hP⟩ := h.par false
  obtain ⟨ns, g1, g2, g3, g4⟩ := sem_sizes hP (ht.sem hP)
  refine ⟨bytes, ns, h1, g1, g2, g4, g3, ?_⟩
  have e : rows.map List.length = ns := by
    simp only [SepCfg.serialize] at h1
    obtain ⟨sizes, e1, h1⟩ := bind_eq_ok h1
    obtain ⟨r, _, h1⟩ := bind_eq_ok h1
    have e2 : sizes = ns := by
      rw [mapM_comp (fun n => n % 256) _ g1 e1, ← List.map_id ns, List.map_map]
      refine List.map_congr_left fun n hn => Nat.mod_eq_of_lt ?_
      have := (g3 n hn).1
      unfold SepCfg.maxSize at this
      show n < 256
      omega
    have h1 := Except.ok.inj h1
    rw [h4] at h1
    have hlen : rows.length = sizes.length := by
      rw [e2, g2, h3]; rfl
    have i1 := (List.append_inj h1 (by simp only [List.length_append, toBytes_length, List.length_map, hlen])).1
    have i2 := (List.append_inj i1 (by simp only [List.length_append, toBytes_length])).2
    rw [← i2, e2]
  rw [h4]
  simp only [List.length_append, toBytes_length, blocks_size hs hs' h0 h0' h5, e, g2]

/-- a block with `n` entries takes at most `n * c + e` bits -/
def Fmt.Cost (f : Fmt) (w c e : Nat) : Prop := ∀ xs bytes, f w xs bytes → 8 * bytes.length ≤ xs.length * c + e

theorem fixedFmt_cost (a w : Nat) : (fixedFmt a).Cost w (8 * a) 0 := by
  intro xs bytes h
  rw [fixedFmt_size a w xs bytes h, Nat.mul_left_comm]
  omega

theorem noFmt_cost (w : Nat) : noFmt.Cost w 0 0 := by
  intro xs bytes h
  rw [show bytes = [] from h]
  simp

theorem packedFmt_cost {sb : Nat} (h8 : 8 ∣ sb) (hs : 0 < sb) (w : Nat) : (packedFmt sb).Cost w w (sb - 1) := by
  intro xs bytes h
  rw [packedFmt_size sb w xs bytes h, ← Nat.mul_assoc, Nat.mul_div_cancel' h8]
  have := Nat.div_mul_le_self (xs.length * w + sb - 1) sb
  unfold ceilDiv
  rw [Nat.mul_comm]
  omega

theorem blocks_cost {H : HashMapping} {tb ck ek cv ev : Nat} (hk : fk.Cost (H.remainderWidth tb) ck ek) (hv : fv.Cost vw cv ev)
    {b : Nat} {rows : List (List (Nat × Nat))} {bytes : List Nat} (h : Blocks H tb vw fk fv b rows bytes) :
    8 * bytes.length ≤ rows.flatten.length * (ck + cv) + rows.length * (ek + ev) := by
  induction h with
  | nil => simp
  | empty _ ih =>
    simp only [List.flatten_cons, List.nil_append, List.length_cons, Nat.succ_mul]
    omega
  | @block b row qs rows kb vb bytes _ hm h1 h2 _ ih =>
    have hl : row.length = qs.length := by
      have := congrArg List.length hm
      simpa using this
    have e1 := hk _ _ h1
    have e2 := hv _ _ h2
    rw [List.length_map] at e2
    rw [← hl] at e1
    simp only [List.flatten_cons, List.length_append, List.length_cons, Nat.succ_mul, Nat.add_mul row.length]
    rw [Nat.mul_add row.length]
    omega

theorem reach_size (h : SepOK p hk tr W kw vw) {t : Tab (SepStore KB VB) Unit} {m : FMap} (ht : SepReach p hk tr W kw vw t m)
    {l : List (Nat × Nat)} (hl : t.pairs (sepMap p hk) = .ok l) : t.size = l.length := by
  obtain ⟨P, hP⟩ := h.par false
  obtain ⟨l', g1, g2, _⟩ := (ht.sem hP).pairs hP.laws hP.noOverflow
  rw [hl] at g1
  cases g1
  exact g2.size

/-- **C112**: a bound for the size of a file with bit-packed keys: `88` bits, `7 + sb` bits for each bucket, the bits of the quotient
for each key.  Values that take `cv` bits each, with `ev` bits lost per bucket, add to that. -/
theorem C112_separate_bits {c : VarCfg} {p : SepCfg VarB VB} (h : SepOK p hk tr 64 kw vw) (hp : p.kops = varOps c) (hc : c.good)
    (hflat : c.strict = false) (hf' : ValueFmt VB p.vops tr fv) {cv ev : Nat} (hcv : fv.Cost vw cv ev)
    {t : Tab (SepStore VarB VB) Unit} {m : FMap} (ht : SepReach p hk tr 64 kw vw t m) :
    ∃ bytes, p.serialize hk t = .ok bytes ∧
      8 * bytes.length ≤ 88 + t.bucketCount * (7 + c.sb + ev) + t.size * ((hk.mapping kw).remainderWidth t.tb + cv) := by
  have hf : KeyFmt VarB p.kops 64 (packedFmt c.sb) := by rw [hp]; exact .varwidth hc hflat
  obtain ⟨bytes, rows, h1, h2, h3, _, body, h4, h5⟩ := C92_separate_format h hf hf' ht
  refine ⟨bytes, h1, ?_⟩
  have hsb : 8 ∣ c.sb := by rcases hc.1 with e | e | e | e <;> rw [e] <;> decide
  have hpos := hc.pos
  have key := blocks_cost (packedFmt_cost hsb hpos _) hcv h5
  have hb : rows.length = t.bucketCount := h3
  rw [← reach_size h ht h2, hb] at key
  rw [h4]
  simp only [List.length_append, toBytes_length, List.length_map, hb]
  have e : t.bucketCount * (7 + c.sb + ev) = t.bucketCount * 8 + t.bucketCount * (c.sb - 1 + ev) := by
    rw [← Nat.mul_add]; congr 1; omega
  omega

theorem quotient_bits (hq : hk.quotienting) {tb : Nat} (hkw : kw ≤ 64) (htb : tb ≤ kw) : (hk.mapping kw).remainderWidth tb = kw - tb := by
  cases hk with
  | splitMix => exact hq.elim
  | xorshift s => exact bij_remainderWidth hkw htb
  | multiplicative s => exact bij_remainderWidth hkw htb

/-- the table has no buckets or less than `2^kw` -/
theorem reach_tb (h : SepOK p hk tr W kw vw) (hq : hk.quotienting) {t : Tab (SepStore KB VB) Unit} {m : FMap}
    (ht : SepReach p hk tr W kw vw t m) : kw ≤ 64 ∧ t.tb < kw := by
  obtain ⟨P, hP⟩ := h.par false
  have hS := h.hash
  have h3 : 3 ≤ kw ∧ kw ≤ 64 := by cases hk <;> exact ⟨hS.1, hS.2.1⟩
  have hw : hk.width kw = kw := by
    cases hk with
    | splitMix => exact hq.elim
    | xorshift s => rfl
    | multiplicative s => rfl
  refine ⟨h3.2, ?_⟩
  rcases sem_cases hP (ht.sem hP) with ⟨h1, _⟩ | ⟨c, full, hl⟩
  · omega
  · have hhi := hl.hi
    have e : P.hi = hk.width kw - 1 := by obtain ⟨_, _, rfl⟩ := hP.par; rfl
    omega

/-- **C112**, the README on compression: with a bijective hash function and bit-packed keys the file is shorter than the list of the
pairs, a key in `kw` bits, as soon as there are enough keys for the number of buckets. -/
theorem C112_separate_compression {c : VarCfg} {p : SepCfg VarB VB} (h : SepOK p hk tr 64 kw vw) (hp : p.kops = varOps c) (hc : c.good)
    (hflat : c.strict = false) (hf' : ValueFmt VB p.vops tr fv) {cv ev : Nat} (hcv : fv.Cost vw cv ev) (hq : hk.quotienting)
    {t : Tab (SepStore VarB VB) Unit} {m : FMap} (ht : SepReach p hk tr 64 kw vw t m)
    (hmany : 88 + 2 ^ t.tb * (7 + c.sb + ev) < m.size * t.tb) :
    ∃ bytes, p.serialize hk t = .ok bytes ∧ 8 * bytes.length < m.size * (kw + cv) := by
  obtain ⟨bytes, h1, h2⟩ := C112_separate_bits h hp hc hflat hf' hcv ht
  refine ⟨bytes, h1, ?_⟩
  obtain ⟨h64, htb⟩ := reach_tb h hq ht
  obtain ⟨P, hP⟩ := h.par false
  have hsz := (ht.sem hP).size
  rw [quotient_bits hq h64 (by omega), hsz] at h2
  have hbc : t.bucketCount * (7 + c.sb + ev) ≤ 2 ^ t.tb * (7 + c.sb + ev) := by
    apply Nat.mul_le_mul_right
    unfold Tab.bucketCount
    split
    · exact Nat.zero_le _
    · exact Nat.le_refl _
  have e : m.size * (kw + cv) = m.size * (kw - t.tb + cv) + m.size * t.tb := by
    rw [← Nat.mul_add]; congr 1; omega
  omega

/-! ### The group table -/

theorem ceilDiv_mul_le (n b : Nat) : b * ceilDiv n b ≤ n + b - 1 := by
  unfold ceilDiv
  exact Nat.mul_div_le _ _

theorem sum_range_lengths (row : Nat → List (Nat × Nat)) (bpg j : Nat) :
    ((List.range bpg).map (fun g => (row (j * bpg + g)).length)).sum = (groupRow row bpg j).length := by
  unfold groupRow
  rw [List.length_flatMap]

theorem groupBlocks_cost {H : HashMapping} {tb bpg : Nat} {row : Nat → List (Nat × Nat)} {j n : Nat} {bytes : List Nat}
    (h : GroupBlocks H tb vw bpg row j n bytes) :
    8 * bytes.length ≤ ((List.range n).map (fun i => (groupRow row bpg (j + i)).length)).sum * (1 + H.remainderWidth tb + vw) +
      n * (222 + bpg) := by
  induction h with
  | nil => simp
  | @empty j n bytes h0 _ ih =>
    rw [List.range_succ_eq_map, List.map_cons, List.map_map, List.sum_cons]
    have e : (List.range n).map ((fun i => (groupRow row bpg (j + i)).length) ∘ Nat.succ) =
        (List.range n).map (fun i => (groupRow row bpg (j + 1 + i)).length) := by
      apply List.map_congr_left
      intro i _
      simp only [Function.comp_def, Nat.succ_eq_add_one]
      congr 2; omega
    have e5 : (n + 1) * (222 + bpg) = n * (222 + bpg) + (222 + bpg) := Nat.succ_mul _ _
    rw [e, Nat.add_zero, h0, List.length_append]
    simp only [List.length_cons, List.length_nil, Nat.zero_add]
    omega
  | @block j n bs ks vs bytes _ _ h1 h2 h3 _ ih =>
    rw [List.range_succ_eq_map, List.map_cons, List.map_map, List.sum_cons]
    have e : (List.range n).map ((fun i => (groupRow row bpg (j + i)).length) ∘ Nat.succ) =
        (List.range n).map (fun i => (groupRow row bpg (j + 1 + i)).length) := by
      apply List.map_congr_left
      intro i _
      simp only [Function.comp_def, Nat.succ_eq_add_one]
      congr 2; omega
    have e1 := h1.1
    have c1 := ceilDiv_mul_le (unary ((List.range bpg).map (fun g => (row (j * bpg + g)).length))).length 64
    rw [unary_length, sum_range_lengths, List.length_map, List.length_range] at c1 e1
    have e2 := packedFmt_cost (by decide : 8 ∣ 64) (by omega) _ _ _ h2
    have e3 := packedFmt_cost (by decide : 8 ∣ 64) (by omega) _ _ _ h3
    rw [List.length_map] at e2 e3
    have e5 : (n + 1) * (222 + bpg) = n * (222 + bpg) + (222 + bpg) := Nat.succ_mul _ _
    rw [e, Nat.add_zero, Nat.add_mul]
    simp only [List.length_append, toBytes_length]
    have e4 : (groupRow row bpg j).length * (1 + H.remainderWidth tb + vw) = (groupRow row bpg j).length +
        (groupRow row bpg j).length * H.remainderWidth tb + (groupRow row bpg j).length * vw := by
      rw [Nat.mul_add, Nat.mul_add, Nat.mul_one]
    omega

theorem sum_groups (row : Nat → List (Nat × Nat)) (bpg : Nat) : ∀ G,
    ((List.range G).map (fun i => (groupRow row bpg i).length)).sum = ((List.range (G * bpg)).map (fun b => (row b).length)).sum
  | 0 => by simp
  | G + 1 => by
    rw [List.range_succ, List.map_append, List.sum_append, sum_groups row bpg G, Nat.succ_mul, List.range_add, List.map_append,
      List.sum_append, List.map_map]
    congr 1
    simp only [List.map_cons, List.map_nil, List.sum_cons, List.sum_nil, Nat.add_zero]
    exact (sum_range_lengths row bpg G).symm

theorem sum_beyond (row : Nat → List (Nat × Nat)) {a b : Nat} (hab : a ≤ b) (h : ∀ i, a ≤ i → row i = []) :
    ((List.range b).map (fun i => (row i).length)).sum = ((List.range a).flatMap row).length := by
  obtain ⟨d, rfl⟩ := Nat.le.dest hab
  rw [List.range_add, List.map_append, List.sum_append, List.map_map, List.length_flatMap]
  have e : (List.range d).map ((fun i => (row i).length) ∘ fun x => a + x) = List.replicate d 0 := by
    rw [List.eq_replicate_iff]
    refine ⟨by simp, fun x hx => ?_⟩
    obtain ⟨i, _, rfl⟩ := List.mem_map.mp hx
    simp [h (a + i) (by omega)]
  rw [e, List.sum_replicate_nat]
  omega

/-- **C112**: a bound for the size of a file of a group table: for each group the bits of its counter, one bit for each bucket and what is
lost in three arrays of 64-bit words; for each pair one bit in the array of the borders, the bits of the quotient and of the value. -/
theorem C112_group_bits {c : GrpCfg} (h : GrpOK hk kw vw) {t : Tab GrpStore Unit} {m : FMap} (ht : GrpReach c hk kw vw t m) :
    ∃ bytes, grpSerialize c hk t = .ok bytes ∧
      8 * bytes.length ≤ 96 + (2 ^ t.tb / t.bpg + 1) * (222 + t.bpg) + m.size * (1 + (hk.mapping kw).remainderWidth t.tb + vw) := by
  obtain ⟨bytes, row, h1, h2, _, h4, body, h5, h6⟩ := C92_group_format h ht
  refine ⟨bytes, h1, ?_⟩
  have hC := h.coveredE (c := c) (e := c.flat) (sp := false) (by simp)
  obtain ⟨l, hi, _⟩ := ht.sem h
  have hbpg : 1 ≤ t.bpg := by
    rcases hi with ⟨_, _, h3, _⟩ | ⟨_, _, _, hl, _⟩
    · exact h3
    · exact hl.bpg_pos
  have hsz : m.size = ((List.range (2 ^ t.tb)).flatMap row).length := by
    obtain ⟨l', g1, _, g3⟩ := (ht.sem h).pairs hC.laws hC.noOverflow
    rw [grpMapE, pairs_withErase, h2] at g1
    cases g1
    exact g3.size
  have hG : 2 ^ t.tb ≤ (2 ^ t.tb / t.bpg + 1) * t.bpg := by
    have := Nat.lt_div_mul_add (a := 2 ^ t.tb) hbpg
    rw [Nat.succ_mul]
    omega
  rw [h5]
  simp only [List.length_append, toBytes_length]
  split at h6
  · rw [h6, List.length_nil]
    omega
  · have key := groupBlocks_cost h6
    simp only [Nat.zero_add] at key
    rw [sum_groups, sum_beyond row hG h4, ← hsz] at key
    omega

example : ∃ t, GrpReach grpEx (.xorshift 64) 11 13 t (FMap.empty.after (fun v => v % 2 ^ 13) grpExOps) := by
  obtain ⟨t, ht⟩ := C43_group_map_semantics (c := grpEx) grpExOK grpExOps grpExOps_valid
  exact ⟨t, GrpReach.new.run grpExOps_valid ht⟩

/-! ### All keys of a domain -/

theorem length_le_of_subset : ∀ (xs ys : List Nat), xs.Nodup → (∀ x ∈ xs, x ∈ ys) → xs.length ≤ ys.length
  | [], _, _, _ => Nat.zero_le _
  | x :: xs, ys, hn, hs => by
    rw [List.nodup_cons] at hn
    have hx := hs x (by simp)
    have ih := length_le_of_subset xs (ys.erase x) hn.2 (fun y hy => by
      have hne : y ≠ x := by rintro rfl; exact hn.1 hy
      exact (List.mem_erase_of_ne hne).mpr (hs y (by simp [hy])))
    rw [List.length_erase_of_mem hx] at ih
    have := List.length_pos_of_mem hx
    rw [List.length_cons]
    omega

theorem full_size {S O : Type} {g : Cfg S O} {P : Par S O} (L : Laws g P) {t : Tab S O} {m : FMap} (h : Sem g P t m)
    (hall : ∀ k < 2 ^ P.kw, (m.get k).isSome = true) : t.size = 2 ^ P.kw := by
  obtain ⟨l, hi, ha⟩ := h
  have e : t.size = (l.map Prod.fst).length := by rw [List.length_map]; exact hi.size
  have h1 := nodup_length_le (2 ^ P.kw) (l.map Prod.fst) (hi.nodup L) (fun k hk => by
    obtain ⟨x, hx, rfl⟩ := List.mem_map.mp hk
    exact hi.key_lt L hx)
  have h2 := length_le_of_subset (List.range (2 ^ P.kw)) (l.map Prod.fst) List.nodup_range (fun k hk => by
    obtain ⟨v, hv⟩ := Option.isSome_iff_exists.mp (hall k (List.mem_range.mp hk))
    exact List.mem_map.mpr ⟨(k, v), (ha.get k v).mp hv, rfl⟩)
  rw [List.length_range] at h2
  omega

/-- numbers that reach a bound on average all have that size -/
theorem all_eq_of_sum {n : Nat} : ∀ (ns : List Nat), (∀ x ∈ ns, x ≤ n) → ns.sum = ns.length * n → ∀ x ∈ ns, x = n
  | [], _, _ => by simp
  | a :: ns, hle, hsum => by
    have h1 := hle a (by simp)
    have h2 : ns.sum ≤ ns.length * n := by
      have : ∀ (l : List Nat), (∀ x ∈ l, x ≤ n) → l.sum ≤ l.length * n := by
        intro l
        induction l with
        | nil => simp
        | cons b l ih =>
          intro hl
          have := hl b (by simp)
          have := ih (fun x hx => hl x (by simp [hx]))
          simp only [List.sum_cons, List.length_cons, Nat.succ_mul]
          omega
      exact this ns (fun x hx => hle x (by simp [hx]))
    simp only [List.sum_cons, List.length_cons, Nat.succ_mul] at hsum
    intro x hx
    rcases List.mem_cons.mp hx with rfl | hx
    · omega
    · exact all_eq_of_sum ns (fun y hy => hle y (by simp [hy])) (by omega) x hx

/-- **C112**: a set of all `kw`-bit keys, `kw ≥ 11`, written with bytes as the words of the bit-packed buckets.  Its buckets have 128
keys of 7 bits each and one byte for their number, so that a key takes less than a byte, however wide the keys are. -/
theorem C112_full_domain {c : VarCfg} {p : SepCfg VarB Unit} (h : SepOK p hk tr 64 kw vw) (hp : p.kops = varOps c) (h8 : c.sb = 8)
    (hflat : c.strict = false) (hf' : ValueFmt Unit p.vops tr noFmt) (hmax : p.maxBucket = 255) (hq : hk.quotienting) (h11 : 11 ≤ kw)
    {ops : List MapOp} (hops : ∀ op ∈ ops, SepValid hk 64 kw op) (hN : ReserveAtMost (2 ^ (kw - 7)) ops)
    {t : Tab (SepStore VarB Unit) Unit} (ht : SepAfter p hk kw vw ops t)
    (hall : ∀ k < 2 ^ kw, ((FMap.empty.after (tr vw) ops).get k).isSome = true) :
    ∃ bytes, p.serialize hk t = .ok bytes ∧ bytes.length = 11 + 113 * 2 ^ (kw - 7) ∧ bytes.length < 2 ^ kw := by
  have hc : c.good := ⟨.inl h8, .inl hflat⟩
  have hf : KeyFmt VarB p.kops 64 (packedFmt c.sb) := by rw [hp]; exact .varwidth hc hflat
  have hB := C111_separate_buckets h hops ht hN
  have hM : p.maxSize = 255 := by unfold SepCfg.maxSize; omega
  have hr : SepReach p hk tr 64 kw vw t (FMap.empty.after (tr vw) ops) := by
    obtain ⟨as, hrun⟩ := ht
    exact SepReach.new.run hops hrun
  obtain ⟨h64, htb⟩ := reach_tb h hq hr
  have hqw := quotient_bits hq h64 (Nat.le_of_lt htb)
  obtain ⟨bytes, ns, h1, _, h3, h4, h5, h6⟩ := C112_separate_file_size h hf hf' hr (packedFmt_size _ _) (noFmt_size _)
    (by simp [ceilDiv, h8]) rfl
  have hsize : t.size = 2 ^ kw := by
    obtain ⟨P, hP⟩ := h.par false
    have e : P.kw = kw := by obtain ⟨_, _, rfl⟩ := hP.par; rfl
    rw [← e]
    exact full_size hP.laws (hr.sem hP) (by rw [e]; exact hall)
  have hpos := Nat.two_pow_pos kw
  have htb0 : t.tb ≠ 0 := by
    intro h0
    have : ns = [] := List.length_eq_zero_iff.mp (by rw [h3]; simp [Tab.bucketCount, h0])
    rw [this] at h4
    simp only [List.sum_nil] at h4
    omega
  have hbc : t.bucketCount = 2 ^ t.tb := by unfold Tab.bucketCount; rw [if_neg htb0]
  have hw : hk.width kw = kw := by
    cases hk with
    | splitMix => exact hq.elim
    | xorshift s => rfl
    | multiplicative s => rfl
  -- at most `2^(kw-7)` buckets because growth stops there, at least as many because of the limit of 255 entries
  have hup : t.tb ≤ kw - 7 := by
    have e2 : Nat.log2 255 = 7 := by decide
    rw [hbc, hM, e2, hw] at hB
    have h16 : (2 : Nat) ^ 4 ≤ 2 ^ (kw - 7) := Nat.pow_le_pow_right (by omega) (by omega)
    exact (Nat.pow_le_pow_iff_right (by omega : 1 < 2)).mp (by omega)
  have hdown : kw - t.tb ≤ 7 := by
    have hle : ns.sum ≤ ns.length * 255 := by
      have : ∀ (l : List Nat), (∀ x ∈ l, x ≤ 255) → l.sum ≤ l.length * 255 := by
        intro l
        induction l with
        | nil => simp
        | cons b l ih =>
          intro hl
          have := hl b (by simp)
          have := ih (fun x hx => hl x (by simp [hx]))
          simp only [List.sum_cons, List.length_cons]
          omega
      exact this ns (fun x hx => by have := (h5 x hx).1; omega)
    rw [h4, hsize, h3, hbc] at hle
    have e : (2 : Nat) ^ kw = 2 ^ t.tb * 2 ^ (kw - t.tb) := by rw [← Nat.pow_add]; congr 1; omega
    rw [e] at hle
    have := Nat.le_of_mul_le_mul_left hle (Nat.two_pow_pos _)
    apply Nat.le_of_not_lt
    intro h8
    have := Nat.pow_le_pow_right (show 0 < 2 by omega) (show 8 ≤ kw - t.tb from h8)
    omega
  have htb7 : t.tb = kw - 7 := by omega
  have hq7 : kw - t.tb = 7 := by omega
  have e128 : (2 : Nat) ^ kw = 2 ^ (kw - 7) * 128 := by
    rw [show (128 : Nat) = 2 ^ 7 by rfl, ← Nat.pow_add]; congr 1; omega
  have hns : ns = List.replicate (2 ^ (kw - 7)) 128 := by
    rw [List.eq_replicate_iff]
    refine ⟨by rw [h3, hbc, htb7], all_eq_of_sum ns (fun x hx => ?_) ?_⟩
    · have := (h5 x hx).2
      rw [hqw, hq7] at this
      exact this
    · rw [h4, hsize, h3, hbc, htb7, e128]
  refine ⟨bytes, h1, ?_⟩
  have hlen : bytes.length = 11 + 113 * 2 ^ (kw - 7) := by
    rw [h6, hns, List.map_replicate, List.sum_replicate_nat, hqw, hq7, h8, hbc, htb7]
    have : 8 / 8 * ceilDiv (128 * 7) 8 + 0 = 112 := by decide
    rw [this]
    omega
  refine ⟨hlen, ?_⟩
  have h16 : (2 : Nat) ^ 4 ≤ 2 ^ (kw - 7) := Nat.pow_le_pow_right (by omega) (by omega)
  omega

/-- a set of keys in `varwidth_bucket`s with bytes as words -/
def packEx : SepCfg VarB Unit where
  kops := varOps ⟨8, false, fun _ => true⟩
  vops := nullOps
  strat := .incremental
  maxBucket := 255

theorem packEx_ok (hkw : 3 ≤ kw ∧ kw ≤ 64) : SepOK packEx (.xorshift 64) (fun _ _ => 1) 64 kw 1 where
  keys := .varwidth (c := ⟨8, false, fun _ => true⟩) ⟨.inl rfl, .inl rfl⟩ rfl
  vals := .null
  max := by decide
  hash := ⟨by omega, by omega, by omega, by omega⟩
  vw_pos := by decide
  vw_le := by decide

/-- insertion of all keys -/
def allKeys (kw : Nat) : List MapOp := (List.range (2 ^ kw)).map (fun k => .insert k 0)

theorem allKeys_get (tr : Nat → Nat) (k : Nat) : ∀ (ks : List Nat) (m : FMap), (m.get k).isSome = true ∨ k ∈ ks →
    ((m.after tr (ks.map (fun k => .insert k 0))).get k).isSome = true
  | [], m, h => by simpa [FMap.after] using h
  | x :: ks, m, h => by
    rw [List.map_cons, FMap.after]
    apply allKeys_get tr k ks
    rcases h with h | h
    · left
      simp only [FMap.step]
      split
      · exact h
      · simp only [FMap.put]
        split <;> simp [h]
    · rcases List.mem_cons.mp h with rfl | h
      · left
        simp only [FMap.step]
        split
        · next e => simp [e]
        · simp [FMap.put]
      · exact .inr h

theorem allKeys_full (f : Nat → Nat) {k : Nat} (hk : k < 2 ^ kw) : ((FMap.empty.after f (allKeys kw)).get k).isSome = true :=
  allKeys_get _ k _ _ (.inr (List.mem_range.mpr hk))

/-- all keys, inserted in order; for 20 bits the file takes 925707 bytes, 7.06 bits for a key -/
example (h11 : 11 ≤ kw) (h64 : kw ≤ 64) : ∃ t bytes, SepAfter packEx (.xorshift 64) kw 1 (allKeys kw) t ∧
    packEx.serialize (.xorshift 64) t = .ok bytes ∧ bytes.length = 11 + 113 * 2 ^ (kw - 7) := by
  have hv : ∀ op ∈ allKeys kw, SepValid (.xorshift 64) 64 kw op := by
    intro op hop
    obtain ⟨k, hk, rfl⟩ := List.mem_map.mp hop
    exact ⟨List.mem_range.mp hk, trivial⟩
  have hN : ReserveAtMost (2 ^ (kw - 7)) (allKeys kw) := by
    intro m hm
    obtain ⟨k, _, hk⟩ := List.mem_map.mp hm
    cases hk
  obtain ⟨t, ht⟩ := sep_exists (packEx_ok ⟨by omega, h64⟩) hv
  obtain ⟨bytes, h1, h2, _⟩ := C112_full_domain (packEx_ok ⟨by omega, h64⟩) rfl rfl rfl .null rfl trivial h11 hv hN ht
    (fun k hk => allKeys_full _ hk)
  exact ⟨t, bytes, ht, h1, h2⟩

example : 11 + 113 * 2 ^ (20 - 7) = 925707 := by decide

/-- 90 keys of 10 bits in 16 buckets: 90 * 4 exceeds 88 + 16 * 15 -/
example : (match Tab.run (sepMap packEx (.xorshift 64)) (Tab.new (sepMap packEx (.xorshift 64)) 10 1)
      ((List.range 90).map (fun i => .insert (i * 11) 0)) with
    | .ok (t, _) => t.tb == 4 && decide (88 + 2 ^ t.tb * (7 + 8 + 0) < t.size * t.tb) &&
      (match packEx.serialize (.xorshift 64) t with | .ok bytes => decide (8 * bytes.length < 90 * 10) | _ => false)
    | _ => false) = true := by decide +kernel

end SC
