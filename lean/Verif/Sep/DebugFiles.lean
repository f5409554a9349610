import Verif.Sep.DebugSerial
/-!
# Lengths of the files of debug and release builds
-/
namespace SC

/-- the same bucket class in a debug build (first) and in a release build (second) -/
inductive DbgOf : (B : Type) → BucketOps B → (B' : Type) → BucketOps B' → Prop
  | plain {s j : Nat} : DbgOf (DbgB PlainB) (dbgOps (dbgPlain s j)) PlainB (plainOps s)
  | class {s j : Nat} : DbgOf (DbgB PlainB) (dbgOps (dbgClass s j)) PlainB (classOps s)
  | avx {s j : Nat} : DbgOf (DbgB PlainB) (dbgOps (dbgAvx s j)) PlainB (avxOps s)
  | varwidth {v v' : VarCfg} {j : Nat} (h : v.sb = v'.sb) : DbgOf (DbgB VarB) (dbgOps (dbgVar v j)) VarB (varOps v')
  | null : DbgOf Unit nullOps Unit nullOps

/-- `serialize` writes, and `deserialize` reads, `f len w` bytes -/
structure FixedLen {B : Type} (ops : BucketOps B) (f : Nat → Nat → Nat) : Prop where
  write : ∀ b len w bytes, ops.serialize b len w = .ok bytes → bytes.length = f len w
  read : ∀ len w is b is', ops.deserialize len w is = .ok (b, is') → is.length = f len w + is'.length

theorem takeBytes_len {n : Nat} {s x r : List Nat} (h : takeBytes n s = .ok (x, r)) : s.length = n + r.length := by
  unfold takeBytes at h
  split at h
  · cases h; rw [List.length_drop]; omega
  · cases h

theorem plainSerialize_len {s : Nat} {b : PlainB} : ∀ (n i : Nat) {bytes : List Nat}, plainSerialize s b i n = .ok bytes →
    bytes.length = n * (s / 8) := by
  intro n
  induction n with
  | zero => intro i bytes h; cases h; simp
  | succ n ih =>
    intro i bytes h
    unfold plainSerialize at h
    obtain ⟨x, _, h⟩ := bind_eq_ok h
    obtain ⟨r, h2, h⟩ := bind_eq_ok h
    cases h
    rw [List.length_append, toBytes_length, ih (i + 1) h2, Nat.succ_mul, Nat.add_comm]

theorem plainDeserialize_len {s : Nat} : ∀ (n : Nat) {is is' : List Nat} {cs : Cells}, plainDeserialize s n is = .ok (cs, is') →
    is.length = n * (s / 8) + is'.length := by
  intro n
  induction n with
  | zero => intro is is' cs h; cases h; simp
  | succ n ih =>
    intro is is' cs h
    unfold plainDeserialize at h
    obtain ⟨⟨x, is1⟩, h1, h⟩ := bind_eq_ok h
    obtain ⟨⟨r, is2⟩, h2, h⟩ := bind_eq_ok h
    cases h
    rw [takeBytes_len h1, ih h2, Nat.succ_mul]
    omega

theorem fixedLen_plain (s : Nat) : FixedLen (plainOps s) (fun n _ => n * (s / 8)) where
  write _ _ _ _ h := plainSerialize_len _ _ h
  read _ _ _ _ _ h := by
    obtain ⟨⟨cs, is1⟩, h1, h⟩ := bind_eq_ok h
    cases h
    exact plainDeserialize_len _ h1

theorem fixedLen_var (v : VarCfg) : FixedLen (varOps v) (fun n w => varBits v.sb n w / 8) where
  write _ _ _ _ h := by
    obtain ⟨m, _, h⟩ := bind_eq_ok h
    obtain ⟨_, _, h⟩ := bind_eq_ok h
    cases h
    simp [memBytes]
  read _ _ _ _ _ h := by
    obtain ⟨⟨bs, is1⟩, h1, h⟩ := bind_eq_ok h
    cases h
    exact takeBytes_len h1

/-- the members that a debug build writes in front of a bucket -/
theorem fixedLen_dbg {B : Type} {c : DbgCfg B} {f : Nat → Nat → Nat} (h : FixedLen c.ops f) :
    FixedLen (dbgOps c) (fun n w => (if c.block.isSome then 16 else 8) + f n w) where
  write b len w bytes hb := by
    cases hc : c.block with
    | none =>
      simp only [dbgOps, hc] at hb
      obtain ⟨_, _, hb⟩ := bind_eq_ok hb
      obtain ⟨s, h2, hb⟩ := bind_eq_ok hb
      cases hb
      rw [List.length_append, toBytes_length, h.write _ _ _ _ h2]
      simp
    | some sb =>
      simp only [dbgOps, hc] at hb
      obtain ⟨_, _, hb⟩ := bind_eq_ok hb
      obtain ⟨_, _, hb⟩ := bind_eq_ok hb
      obtain ⟨s, h2, hb⟩ := bind_eq_ok hb
      cases hb
      rw [List.length_append, List.length_append, toBytes_length, toBytes_length, h.write _ _ _ _ h2]
      simp
  read len w is b is' hb := by
    cases hc : c.block with
    | none =>
      simp only [dbgOps, hc] at hb
      obtain ⟨⟨y, is1⟩, h1, hb⟩ := bind_eq_ok hb
      obtain ⟨_, _, hb⟩ := bind_eq_ok hb
      obtain ⟨⟨d, is2⟩, h2, hb⟩ := bind_eq_ok hb
      cases hb
      rw [takeBytes_len h1, h.read _ _ _ _ _ h2]
      simp only [Option.isSome_none, Bool.false_eq_true, if_false]
      omega
    | some sb =>
      simp only [dbgOps, hc] at hb
      obtain ⟨⟨x, is0⟩, h0, hb⟩ := bind_eq_ok hb
      obtain ⟨⟨y, is1⟩, h1, hb⟩ := bind_eq_ok hb
      obtain ⟨_, _, hb⟩ := bind_eq_ok hb
      obtain ⟨_, _, hb⟩ := bind_eq_ok hb
      obtain ⟨⟨d, is2⟩, h2, hb⟩ := bind_eq_ok hb
      cases hb
      rw [takeBytes_len h0, takeBytes_len h1, h.read _ _ _ _ _ h2]
      simp only [Option.isSome_some, if_true]
      omega

/-- a debug build does not write fewer bytes -/
theorem DbgOf.len {B B' : Type} {ops : BucketOps B} {ops' : BucketOps B'} (h : DbgOf B ops B' ops') :
    ∃ f f', FixedLen ops f ∧ FixedLen ops' f' ∧ ∀ n w, f' n w ≤ f n w := by
  have hp : ∀ s (o : BucketOps PlainB), o.serialize = (plainOps s).serialize → o.deserialize = (plainOps s).deserialize →
      FixedLen o (fun n _ => n * (s / 8)) := fun s o h1 h2 =>
    ⟨by rw [h1]; exact (fixedLen_plain s).write, by rw [h2]; exact (fixedLen_plain s).read⟩
  cases h with
  | @plain s j => exact ⟨_, _, fixedLen_dbg (c := dbgPlain s j) (hp s _ rfl rfl), hp s _ rfl rfl, fun n w => by omega⟩
  | @«class» s j => exact ⟨_, _, fixedLen_dbg (c := dbgClass s j) (hp s _ rfl rfl), hp s _ rfl rfl, fun n w => by omega⟩
  | @avx s j => exact ⟨_, _, fixedLen_dbg (c := dbgAvx s j) (hp s _ rfl rfl), hp s _ rfl rfl, fun n w => by omega⟩
  | @varwidth v v' j h => exact ⟨_, _, fixedLen_dbg (c := dbgVar v j) (fixedLen_var v), fixedLen_var v', fun n w => by
      rw [h]; omega⟩
  | null => exact ⟨fun _ _ => 0, fun _ _ => 0, ⟨fun _ _ _ _ h => by cases h; rfl, fun _ _ _ _ _ h => by cases h; simp⟩,
      ⟨fun _ _ _ _ h => by cases h; rfl, fun _ _ _ _ _ h => by cases h; simp⟩, fun _ _ => Nat.le_refl _⟩

/-- bytes of the blocks of the buckets `bs` with sizes `sz`, if a bucket with `n` entries takes `f n` bytes -/
def blockLen (sz : Nat → Nat) (f : Nat → Nat) (bs : List Nat) : Nat := (bs.map fun b => if sz b = 0 then 0 else f (sz b)).sum

theorem blockLen_le {sz f g : Nat → Nat} (h : ∀ n, n ≠ 0 → f n ≤ g n) (bs : List Nat) : blockLen sz f bs ≤ blockLen sz g bs := by
  induction bs with
  | nil => exact Nat.le_refl _
  | cons b bs ih =>
    simp only [blockLen, List.map_cons, List.sum_cons] at ih ⊢
    split
    · omega
    · rename_i h0; have := h _ h0; omega

theorem blockLen_lt {sz f g : Nat → Nat} (h : ∀ n, n ≠ 0 → f n < g n) {bs : List Nat} {b : Nat} (hb : b ∈ bs) (h0 : sz b ≠ 0) :
    blockLen sz f bs < blockLen sz g bs := by
  induction bs with
  | nil => cases hb
  | cons a bs ih =>
    have hle := blockLen_le (sz := sz) (fun n hn => Nat.le_of_lt (h n hn)) bs
    simp only [blockLen, List.map_cons, List.sum_cons] at ih hle ⊢
    rcases List.mem_cons.mp hb with rfl | hb
    · rw [if_neg h0, if_neg h0]
      have := h _ h0
      omega
    · have := ih hb
      split
      · omega
      · rename_i h1; have := h _ h1; omega

variable {KB VB KB' VB' : Type} {c : SepDbgCfg KB VB} {p : SepCfg KB' VB'} {hk : HashKind}

theorem get_eq {s : SepStore KB VB} {b : Nat} {x : SepBucket KB VB} (h : s.get b = .ok x) : x = s.bkt b := by
  unfold SepStore.get at h
  split at h
  · cases h; rfl
  · cases h

/-- what a debug build writes -/
theorem dbgSerBuckets_len {fk fv : Nat → Nat → Nat} (hfk : FixedLen c.p.kops fk) (hfv : FixedLen c.p.vops fv) {s : SepDbg KB VB} {d : Dim}
    {sz : Nat → Nat} : ∀ {bs : List Nat} {bytes : List Nat}, (∀ b ∈ bs, (s.base.bkt b).size = sz b) → c.serBuckets s d bs = .ok bytes →
    bytes.length = blockLen sz (fun n => fk n d.qw + fv n d.vw + n * (c.kbits / 8)) bs := by
  intro bs
  induction bs with
  | nil => intro bytes _ h; cases h; rfl
  | cons b bs ih =>
    intro bytes hs h
    have hs' : ∀ a ∈ bs, (s.base.bkt a).size = sz a := fun a ha => hs a (by simp [ha])
    unfold SepDbgCfg.serBuckets at h
    obtain ⟨x, hx, h⟩ := bind_eq_ok h
    have hx := get_eq hx
    have hsz : x.size = sz b := by rw [hx]; exact hs b (by simp)
    simp only [blockLen, List.map_cons, List.sum_cons] at ih ⊢
    split at h
    · rename_i h0
      rw [← hsz, if_pos h0, Nat.zero_add]
      exact ih hs' h
    · rename_i h0
      obtain ⟨ks, h1, h⟩ := bind_eq_ok h
      obtain ⟨vs, h2, h⟩ := bind_eq_ok h
      obtain ⟨ps, h3, h⟩ := bind_eq_ok h
      obtain ⟨r, h4, h⟩ := bind_eq_ok h
      cases h
      rw [← hsz, if_neg h0]
      simp only [List.length_append, hfk.write _ _ _ _ h1, hfv.write _ _ _ _ h2, (fixedLen_plain c.kbits).write _ _ _ _ h3, ih hs' h4]

/-- what a release build writes -/
theorem serBuckets_len {fk fv : Nat → Nat → Nat} (hfk : FixedLen p.kops fk) (hfv : FixedLen p.vops fv) {s : SepStore KB' VB'} {d : Dim}
    {sz : Nat → Nat} : ∀ {bs : List Nat} {bytes : List Nat}, (∀ b ∈ bs, (s.bkt b).size = sz b) → p.serBuckets s d bs = .ok bytes →
    bytes.length = blockLen sz (fun n => fk n d.qw + fv n d.vw) bs := by
  intro bs
  induction bs with
  | nil => intro bytes _ h; cases h; rfl
  | cons b bs ih =>
    intro bytes hs h
    have hs' : ∀ a ∈ bs, (s.bkt a).size = sz a := fun a ha => hs a (by simp [ha])
    unfold SepCfg.serBuckets at h
    obtain ⟨x, hx, h⟩ := bind_eq_ok h
    have hx := get_eq hx
    have hsz : x.size = sz b := by rw [hx]; exact hs b (by simp)
    simp only [blockLen, List.map_cons, List.sum_cons] at ih ⊢
    split at h
    · rename_i h0
      rw [← hsz, if_pos h0, Nat.zero_add]
      exact ih hs' h
    · rename_i h0
      obtain ⟨ks, h1, h⟩ := bind_eq_ok h
      obtain ⟨vs, h2, h⟩ := bind_eq_ok h
      obtain ⟨r, h4, h⟩ := bind_eq_ok h
      cases h
      rw [← hsz, if_neg h0]
      simp only [List.length_append, hfk.write _ _ _ _ h1, hfv.write _ _ _ _ h2, ih hs' h4]

/-- what a release build reads -/
theorem deserBuckets_len {fk fv : Nat → Nat → Nat} (hfk : FixedLen p.kops fk) (hfv : FixedLen p.vops fv) {d : Dim} {sz : Nat → Nat} :
    ∀ {bs : List Nat} {s s1 : SepStore KB' VB'} {is is' : List Nat}, bs.Nodup → (∀ b ∈ bs, (s.bkt b).size = sz b) →
      p.deserBuckets d s bs is = .ok (s1, is') → is.length = blockLen sz (fun n => fk n d.qw + fv n d.vw) bs + is'.length := by
  intro bs
  induction bs with
  | nil => intro s s1 is is' _ _ h; cases h; simp [blockLen]
  | cons b bs ih =>
    intro s s1 is is' hnd hs h
    obtain ⟨hnb, hnd'⟩ := List.nodup_cons.mp hnd
    have hs' : ∀ a ∈ bs, (s.bkt a).size = sz a := fun a ha => hs a (by simp [ha])
    unfold SepCfg.deserBuckets at h
    obtain ⟨x, hx, h⟩ := bind_eq_ok h
    have hx := get_eq hx
    have hsz : x.size = sz b := by rw [hx]; exact hs b (by simp)
    simp only [blockLen, List.map_cons, List.sum_cons] at ih ⊢
    split at h
    · rename_i h0
      rw [← hsz, if_pos h0, Nat.zero_add]
      exact ih hnd' hs' h
    · rename_i h0
      obtain ⟨⟨ks, is1⟩, h1, h⟩ := bind_eq_ok h
      obtain ⟨⟨vs, is2⟩, h2, h⟩ := bind_eq_ok h
      have h3 := ih hnd' (by
        intro a ha
        have : a ≠ b := fun e => hnb (e ▸ ha)
        show (upd s.bkt b _ a).size = _
        rw [upd_other _ _ this]
        exact hs' a ha) h
      rw [← hsz, if_neg h0, hfk.read _ _ _ _ _ h1, hfv.read _ _ _ _ _ h2, h3]
      omega

/-- what a debug build reads -/
theorem dbgDeserBuckets_len {fk fv : Nat → Nat → Nat} (hfk : FixedLen c.p.kops fk) (hfv : FixedLen c.p.vops fv) {d : Dim} {sz : Nat → Nat} :
    ∀ {bs : List Nat} {s s1 : SepDbg KB VB} {n n' : Nat} {is is' : List Nat}, bs.Nodup → (∀ b ∈ bs, (s.base.bkt b).size = sz b) →
      c.deserBuckets d s n bs is = .ok (s1, n', is') →
      is.length = blockLen sz (fun n => fk n d.qw + fv n d.vw + n * (c.kbits / 8)) bs + is'.length := by
  intro bs
  induction bs with
  | nil => intro s s1 n n' is is' _ _ h; cases h; simp [blockLen]
  | cons b bs ih =>
    intro s s1 n n' is is' hnd hs h
    obtain ⟨hnb, hnd'⟩ := List.nodup_cons.mp hnd
    have hs' : ∀ a ∈ bs, (s.base.bkt a).size = sz a := fun a ha => hs a (by simp [ha])
    unfold SepDbgCfg.deserBuckets at h
    obtain ⟨x, hx, h⟩ := bind_eq_ok h
    have hx := get_eq hx
    have hsz : x.size = sz b := by rw [hx]; exact hs b (by simp)
    simp only [blockLen, List.map_cons, List.sum_cons] at ih ⊢
    split at h
    · rename_i h0
      rw [← hsz, if_pos h0, Nat.zero_add]
      exact ih hnd' hs' h
    · rename_i h0
      obtain ⟨_, _, h⟩ := bind_eq_ok h
      obtain ⟨⟨ks, is1⟩, h1, h⟩ := bind_eq_ok h
      obtain ⟨_, _, h⟩ := bind_eq_ok h
      obtain ⟨⟨vs, is2⟩, h2, h⟩ := bind_eq_ok h
      obtain ⟨⟨pl, is3⟩, h3, h⟩ := bind_eq_ok h
      obtain ⟨_, _, h⟩ := bind_eq_ok h
      have h4 := ih hnd' (by
        intro a ha
        have : a ≠ b := fun e => hnb (e ▸ ha)
        show (upd s.base.bkt b _ a).size = _
        rw [upd_other _ _ this]
        exact hs' a ha) h
      rw [← hsz, if_neg h0, hfk.read _ _ _ _ _ h1, hfv.read _ _ _ _ _ h2, (fixedLen_plain c.kbits).read _ _ _ _ _ h3, h4]
      omega

/-! ## Whole files -/

theorem reserve_dims {S O : Type} {g : Cfg S O} {t t1 : Tab S O} {n r : Nat} (h0 : t.tb = 0) (hr : reserveBits n = .ok r)
    (h : t.reserve g n = .ok t1) : t1.tb = r ∧ t1.kw = t.kw ∧ t1.vw = t.vw := by
  unfold Tab.reserve Tab.reserveWith Tab.reserveEmpty at h
  rw [hr, ok_bind, if_pos h0, ok_bind] at h
  obtain ⟨_, _, h⟩ := bind_eq_ok h
  obtain ⟨_, _, h⟩ := bind_eq_ok h
  obtain ⟨_, _, h⟩ := bind_eq_ok h
  cases h
  exact ⟨rfl, rfl, rfl⟩

/-- what a release build does with the part of a file after the bucket sizes -/
theorem deser_shape {t0 t' : Tab (SepStore KB' VB') Unit} {kw vw tb : Nat} {el sizes r rest : List Nat}
    (h1 : kw < 256) (h2 : vw < 256) (h3 : tb < 64) (h0 : tb ≠ 0) (h4 : el.length = 8) (h5 : sizes.length = 2 ^ tb)
    (h : p.deserialize hk t0 (toBytes 1 kw ++ toBytes 1 vw ++ toBytes 1 tb ++ el ++ sizes ++ r) = .ok (t', rest)) :
    ∃ (s0 s1 : SepStore KB' VB') (d : Dim), d.qw = (hk.mapping kw).remainderWidth tb ∧ d.vw = vw ∧
      (∀ b ∈ List.range (2 ^ tb), (s0.bkt b).size = (sizes[b]?).getD 0) ∧
      p.deserBuckets d s0 (List.range (2 ^ tb)) r = .ok (s1, rest) := by
  have a : toBytes 1 kw ++ toBytes 1 vw ++ toBytes 1 tb ++ el ++ sizes ++ r =
      toBytes 1 kw ++ (toBytes 1 vw ++ (toBytes 1 tb ++ (el ++ (sizes ++ r)))) := by simp only [List.append_assoc]
  have e1 : shl64 1 tb = .ok (2 ^ tb) := by
    unfold shl64
    rw [if_pos h3, Nat.shiftLeft_eq, Nat.one_mul, Nat.mod_eq_of_lt (Nat.pow_lt_pow_right (by omega) h3)]
  rw [a] at h
  unfold SepCfg.deserialize at h
  simp only [takeBytes_append _ _ (toBytes_length _ _), ok_bind, ofBytes1 h1, ofBytes1 h2, ofBytes1 (show tb < 256 by omega), e1] at h
  obtain ⟨t1, g1, h⟩ := bind_eq_ok h
  obtain ⟨f1, f2, f3⟩ := reserve_dims rfl (reserveBits_pow h3) g1
  have f2 : t1.kw = kw := f2
  have f3 : t1.vw = vw := f3
  have hbc : t1.bucketCount = 2 ^ tb := by unfold Tab.bucketCount; rw [f1, if_neg h0]
  rw [takeBytes_append _ _ h4] at h
  simp only [ok_bind] at h
  rw [show Tab.bucketCount { t1 with elems := ofBytes el } = 2 ^ tb from hbc, takeBytes_append _ _ h5] at h
  simp only [ok_bind] at h
  obtain ⟨⟨s1, is1⟩, g2, h⟩ := bind_eq_ok h
  cases h
  refine ⟨_, s1, _, ?_, ?_, ?_, g2⟩
  · show ((hk.mapping t1.kw).remainderWidth t1.tb) = _
    rw [f1, f2]
  · exact f3
  · intro b hb
    have hb := List.mem_range.mp hb
    show (sizes[b]?).getD _ = _
    rw [List.getElem?_eq_getElem (by omega)]
    rfl

/-- the same for a debug build -/
theorem dbgDeser_shape {t0 t' : Tab (SepDbg KB VB) Unit} {kw vw tb : Nat} {el sizes r rest : List Nat}
    (h1 : kw < 256) (h2 : vw < 256) (h3 : tb < 64) (h0 : tb ≠ 0) (h4 : el.length = 8) (h5 : sizes.length = 2 ^ tb)
    (h : c.deserialize hk t0 (toBytes 1 kw ++ toBytes 1 vw ++ toBytes 1 tb ++ el ++ sizes ++ r) = .ok (t', rest)) :
    ∃ (s0 s1 : SepDbg KB VB) (n : Nat) (d : Dim), d.qw = (c.hash kw).remainderWidth tb ∧ d.vw = vw ∧
      (∀ b ∈ List.range (2 ^ tb), (s0.base.bkt b).size = (sizes[b]?).getD 0) ∧
      c.deserBuckets d s0 0 (List.range (2 ^ tb)) r = .ok (s1, n, rest) := by
  have a : toBytes 1 kw ++ toBytes 1 vw ++ toBytes 1 tb ++ el ++ sizes ++ r =
      toBytes 1 kw ++ (toBytes 1 vw ++ (toBytes 1 tb ++ (el ++ (sizes ++ r)))) := by simp only [List.append_assoc]
  have e1 : shl64 1 tb = .ok (2 ^ tb) := by
    unfold shl64
    rw [if_pos h3, Nat.shiftLeft_eq, Nat.one_mul, Nat.mod_eq_of_lt (Nat.pow_lt_pow_right (by omega) h3)]
  rw [a] at h
  unfold SepDbgCfg.deserialize at h
  simp only [takeBytes_append _ _ (toBytes_length _ _), ok_bind, ofBytes1 h1, ofBytes1 h2, ofBytes1 (show tb < 256 by omega), e1] at h
  obtain ⟨_, _, h⟩ := bind_eq_ok h
  obtain ⟨t1, g1, h⟩ := bind_eq_ok h
  obtain ⟨f1, f2, f3⟩ := reserve_dims rfl (reserveBits_pow h3) g1
  have f2 : t1.kw = kw := f2
  have f3 : t1.vw = vw := f3
  have hbc : t1.bucketCount = 2 ^ tb := by unfold Tab.bucketCount; rw [f1, if_neg h0]
  obtain ⟨_, _, h⟩ := bind_eq_ok h
  rw [takeBytes_append _ _ h4] at h
  simp only [ok_bind] at h
  obtain ⟨_, _, h⟩ := bind_eq_ok h
  rw [show Tab.bucketCount { t1 with elems := ofBytes el } = 2 ^ tb from hbc, takeBytes_append _ _ h5] at h
  simp only [ok_bind] at h
  obtain ⟨⟨s1, n, is1⟩, g2, h⟩ := bind_eq_ok h
  obtain ⟨_, _, h⟩ := bind_eq_ok h
  cases h
  refine ⟨_, s1, n, _, ?_, ?_, ?_, g2⟩
  · show ((c.hash t1.kw).remainderWidth t1.tb) = _
    rw [f1, f2]
  · exact f3
  · intro b hb
    have hb := List.mem_range.mp hb
    show (sizes[b]?).getD _ = _
    rw [List.getElem?_eq_getElem (by omega)]
    rfl

end SC
