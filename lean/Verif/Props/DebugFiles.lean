import Verif.Sep.DebugFiles
import Verif.Props.DebugSerial
/-!
# Files of debug and release builds: C96
-/
namespace SC

variable {KB VB KB' VB' : Type} {k : DbgCfg KB} {vops : BucketOps VB} {vnull : VB → Bool} {strat : Strategy} {maxBucket : Nat}
  {p : SepCfg KB' VB'} {hk : HashKind} {kbits vbits : Nat} {tr : Nat → Nat → Nat} {W kw vw : Nat}

theorem exists_nonempty {H : HashMapping} {tb : Nat} {cont : Cont} (h : (stored H tb cont).length ≠ 0) :
    ∃ b < 2 ^ tb, cont b ≠ [] := by
  rw [stored_length] at h
  by_cases hc : ∃ b < 2 ^ tb, cont b ≠ []
  · exact hc
  · refine absurd ?_ h
    have : ∀ bs : List Nat, (∀ b ∈ bs, b < 2 ^ tb) → lenSum cont bs = 0 := by
      intro bs
      induction bs with
      | nil => intro _; rfl
      | cons b bs ih =>
        intro hbs
        have h1 := ih (fun x hx => hbs x (by simp [hx]))
        have h2 : cont b = [] := by
          by_cases h0 : cont b = []
          · exact h0
          · exact absurd ⟨b, hbs b (by simp), h0⟩ hc
        simp only [lenSum, List.map_cons, List.sum_cons, h2, List.length_nil, Nat.zero_add] at h1 ⊢
        exact h1
    exact this _ (fun b hb => List.mem_range.mp hb)

/-- **C96** (a debug file in a release build): if a debug build has written a non-empty table, a release build with the same template
arguments that reads the file never consumes all of its bytes: what it takes for the following data `tail` begins too early. -/
theorem C96_release_reads_debug (h : SepDbgTabOK k vops vnull maxBucket hk kbits vbits tr W kw vw)
    (hkd : DbgOf (DbgB KB) (dbgOps k) KB' p.kops) (hvd : DbgOf VB vops VB' p.vops)
    {t : Tab (SepDbg (DbgB KB) VB) Unit} {m : FMap} (ht : DbgReach k vops vnull strat maxBucket hk kbits tr W kw vw t m)
    (hne : t.size ≠ 0) {bytes : List Nat} (hb : (dbgCfg k vops vnull strat maxBucket hk kbits).serialize t = .ok bytes)
    {t0 t' : Tab (SepStore KB' VB') Unit} {tail rest : List Nat} (hd : p.deserialize hk t0 (bytes ++ tail) = .ok (t', rest)) :
    tail.length < rest.length := by
  obtain ⟨KRep, VRep, L⟩ := h.serial strat false
  obtain ⟨fk, fk', hfk, hfk', hlek⟩ := hkd.len
  obtain ⟨fv, fv', hfv, hfv', hlev⟩ := hvd.len
  obtain ⟨l, hi, _⟩ := ht.sem L
  rcases hi with ⟨_, _, _, _, _, h6, _⟩ | ⟨cont, o, full, hl, _⟩
  · exact absurd h6 hne
  · have ho : o = [] := hl.orep.1
    subst ho
    have hbc := hl.bc L.laws
    have htb : t.tb < 64 := Nat.lt_of_le_of_lt hl.hi L.laws.hi_lt
    have htb0 := hl.tb_pos L.laws
    have htkw : t.kw = kw := hl.tkw
    have htvw : t.vw = vw := hl.tvw
    have hkw : kw ≤ 64 := L.laws.kw_le
    have hvw : vw ≤ 64 := L.laws.vw_le
    have hR := hl.rep.1.base
    have hlen : ∀ b < 2 ^ t.tb, (cont b).length < 256 := by
      intro b hb
      have := (hR.bkt b hb).le
      unfold SepCfg.maxSize at this
      omega
    have hsizes : (List.range t.bucketCount).mapM (fun b => (do
        let x ← t.store.base.get b
        return x.size % 256 : Res Nat)) = .ok ((List.range t.bucketCount).map (fun b => (cont b).length)) := by
      apply mapM_ok
      intro b hb
      rw [hbc] at hb
      have hb := List.mem_range.mp hb
      rw [hR.get hb, ok_bind, pure_eq_ok, (hR.bkt b hb).size, Nat.mod_eq_of_lt (hlen b hb)]
    unfold SepDbgCfg.serialize at hb
    obtain ⟨_, _, hb⟩ := bind_eq_ok hb
    rw [hsizes, ok_bind] at hb
    obtain ⟨r, hr, hb⟩ := bind_eq_ok hb
    cases hb
    rw [hbc] at hr hd
    have hlr := dbgSerBuckets_len (sz := fun b => (cont b).length) hfk hfv
      (fun b hb => (hR.bkt b (List.mem_range.mp hb)).size) hr
    rw [List.append_assoc _ r tail] at hd
    obtain ⟨s0, s1, d, d1, d2, d3, d4⟩ := deser_shape (by omega) (by omega) htb (by omega) (toBytes_length 8 _) (by simp) hd
    have hlr' := deserBuckets_len (sz := fun b => (cont b).length) hfk' hfv' List.nodup_range (by
      intro b hb
      rw [d3 b hb]
      have hb := List.mem_range.mp hb
      simp [hb]) d4
    obtain ⟨b, hb, hb0⟩ := exists_nonempty (H := _) (tb := t.tb) (cont := cont) (by
      have he := hl.elems
      simp only [ents] at he
      rw [List.length_append] at he
      simp only [List.map_nil, List.length_nil, Nat.add_zero] at he
      exact fun e => hne (he.trans e))
    have hq : (t.dim (sepDbgTable (dbgCfg k vops vnull strat maxBucket hk kbits))).qw = d.qw := by
      rw [d1]
      exact HashKind.remainder_dbg hk _ _
    have hv : (t.dim (sepDbgTable (dbgCfg k vops vnull strat maxBucket hk kbits))).vw = d.vw := by rw [d2]; rfl
    have hlt := blockLen_lt (sz := fun b => (cont b).length) (f := fun n => fk' n d.qw + fv' n d.vw)
      (g := fun n => fk n d.qw + fv n d.vw + n * (kbits / 8)) (by
        intro n hn
        have h1 := hlek n d.qw
        have h2 := hlev n d.vw
        have h3 : 0 < kbits / 8 := by rcases h.ktype with e | e | e | e <;> subst e <;> decide
        have := Nat.mul_pos (Nat.pos_of_ne_zero hn) h3
        show fk' n d.qw + fv' n d.vw < fk n d.qw + fv n d.vw + n * (kbits / 8)
        omega) (List.mem_range.mpr hb) (fun e => hb0 (List.length_eq_zero_iff.mp e))
    rw [hq, hv] at hlr
    have hlr : r.length = blockLen (fun b => (cont b).length) (fun n => fk n d.qw + fv n d.vw + n * (kbits / 8)) (List.range (2 ^ t.tb)) := hlr
    have hlr' : (r ++ tail).length = blockLen (fun b => (cont b).length) (fun n => fk' n d.qw + fv' n d.vw) (List.range (2 ^ t.tb)) +
      rest.length := hlr'
    rw [List.length_append, hlr] at hlr'
    omega

/-- **C96** (a release file in a debug build): if a release build has written a non-empty table, a debug build with the same template
arguments that reads the file does not stop at its end: it fails or consumes bytes of the following data `tail`. -/
theorem C96_debug_reads_release (h : SepOK p hk tr W kw vw) (hkd : DbgOf (DbgB KB) (dbgOps k) KB' p.kops) (hvd : DbgOf VB vops VB' p.vops)
    (hkb : 8 ≤ kbits) {t : Tab (SepStore KB' VB') Unit} {m : FMap} (ht : SepReach p hk tr W kw vw t m)
    (hne : t.size ≠ 0) {bytes : List Nat} (hb : p.serialize hk t = .ok bytes)
    {t0 t' : Tab (SepDbg (DbgB KB) VB) Unit} {tail rest : List Nat}
    (hd : (dbgCfg k vops vnull strat maxBucket hk kbits).deserialize hk t0 (bytes ++ tail) = .ok (t', rest)) :
    rest.length < tail.length := by
  obtain ⟨P, hP⟩ := h.par false
  have L := hP.laws
  obtain ⟨fk, fk', hfk, hfk', hlek⟩ := hkd.len
  obtain ⟨fv, fv', hfv, hfv', hlev⟩ := hvd.len
  obtain ⟨l, hi, _⟩ := ht.sem hP
  obtain ⟨knorm, KRep, VRep, hrep, hK, hV⟩ := hP.buckets
  have e1 : P.kw = kw := by obtain ⟨_, _, rfl⟩ := hP.par; rfl
  have e2 : P.vw = vw := by obtain ⟨_, _, rfl⟩ := hP.par; rfl
  rcases hi with ⟨_, _, _, _, _, h6, _⟩ | ⟨cont, o, full, hl, _⟩
  · exact absurd h6 hne
  · have ho : o = [] := hP.noOverflow _ _ _ _ hl.orep
    subst ho
    have hbc := hl.bc L
    have htb : t.tb < 64 := Nat.lt_of_le_of_lt hl.hi L.hi_lt
    have htb0 := hl.tb_pos L
    have htkw := hl.tkw
    have htvw := hl.tvw
    have hkw := L.kw_le
    have hvw := L.vw_le
    have hR : SepRep p KRep VRep false t.store (t.dim (sepMap p hk)) cont := by have := hl.rep; rwa [hrep] at this
    have hlen : ∀ b < 2 ^ t.tb, (cont b).length < 256 := by
      intro b hb
      have := (hR.bkt b hb).le
      unfold SepCfg.maxSize at this
      omega
    have hsizes : (List.range t.bucketCount).mapM (fun b => (do
        let x ← t.store.get b
        return x.size % 256 : Res Nat)) = .ok ((List.range t.bucketCount).map (fun b => (cont b).length)) := by
      apply mapM_ok
      intro b hb
      rw [hbc] at hb
      have hb := List.mem_range.mp hb
      rw [hR.get hb, ok_bind, pure_eq_ok, (hR.bkt b hb).size, Nat.mod_eq_of_lt (hlen b hb)]
    unfold SepCfg.serialize at hb
    rw [hsizes, ok_bind] at hb
    obtain ⟨r, hr, hb⟩ := bind_eq_ok hb
    cases hb
    rw [hbc] at hr hd
    have hlr := serBuckets_len (sz := fun b => (cont b).length) hfk' hfv' (fun b hb => (hR.bkt b (List.mem_range.mp hb)).size) hr
    rw [List.append_assoc _ r tail] at hd
    obtain ⟨s0, s1, n, d, d1, d2, d3, d4⟩ := dbgDeser_shape (by omega) (by omega) htb (by omega) (toBytes_length 8 _) (by simp) hd
    have hlr' := dbgDeserBuckets_len (sz := fun b => (cont b).length) hfk hfv List.nodup_range (by
      intro b hb
      rw [d3 b hb]
      have hb := List.mem_range.mp hb
      simp [hb]) d4
    obtain ⟨b, hb, hb0⟩ := exists_nonempty (H := _) (tb := t.tb) (cont := cont) (by
      have he := hl.elems
      simp only [ents] at he
      rw [List.length_append] at he
      simp only [List.map_nil, List.length_nil, Nat.add_zero] at he
      exact fun e => hne (he.trans e))
    have hq : (t.dim (sepMap p hk)).qw = d.qw := by
      rw [d1]
      exact (HashKind.remainder_dbg hk _ _).symm
    have hv : (t.dim (sepMap p hk)).vw = d.vw := by rw [d2]; rfl
    have hlt := blockLen_lt (sz := fun b => (cont b).length) (f := fun n => fk' n d.qw + fv' n d.vw)
      (g := fun n => fk n d.qw + fv n d.vw + n * (kbits / 8)) (by
        intro n hn
        have h1 := hlek n d.qw
        have h2 := hlev n d.vw
        have h3 : 0 < kbits / 8 := by omega
        have := Nat.mul_pos (Nat.pos_of_ne_zero hn) h3
        show fk' n d.qw + fv' n d.vw < fk n d.qw + fv n d.vw + n * (kbits / 8)
        omega) (List.mem_range.mpr hb) (fun e => hb0 (List.length_eq_zero_iff.mp e))
    rw [hq, hv] at hlr
    have hlr : r.length = blockLen (fun b => (cont b).length) (fun n => fk' n d.qw + fv' n d.vw) (List.range (2 ^ t.tb)) := hlr
    have hlr' : (r ++ tail).length = blockLen (fun b => (cont b).length) (fun n => fk n d.qw + fv n d.vw + n * (kbits / 8)) (List.range (2 ^ t.tb)) +
      rest.length := hlr'
    rw [List.length_append, hlr] at hlr'
    omega

/-- **C96** (a release file in a debug build, nothing follows): reading fails. -/
theorem C96_debug_fails_on_release (h : SepOK p hk tr W kw vw) (hkd : DbgOf (DbgB KB) (dbgOps k) KB' p.kops)
    (hvd : DbgOf VB vops VB' p.vops) (hkb : 8 ≤ kbits) {t : Tab (SepStore KB' VB') Unit} {m : FMap} (ht : SepReach p hk tr W kw vw t m)
    (hne : t.size ≠ 0) {bytes : List Nat} (hb : p.serialize hk t = .ok bytes) (t0 : Tab (SepDbg (DbgB KB) VB) Unit) :
    ∃ e, (dbgCfg k vops vnull strat maxBucket hk kbits).deserialize hk t0 bytes = .error e := by
  cases hr : (dbgCfg k vops vnull strat maxBucket hk kbits).deserialize hk t0 bytes with
  | error e => exact ⟨e, rfl⟩
  | ok r =>
    rw [← List.append_nil bytes] at hr
    have := C96_debug_reads_release h hkd hvd hkb ht hne hb hr
    simp at this

/-! ## Examples -/

/-- the template arguments of the example in a debug build -/
abbrev dbgExCfg : SepDbgCfg (DbgB PlainB) (DbgB PlainB) :=
  dbgCfg (dbgPlain 16 12345) (dbgOps (dbgPlain 32 678)) (fun b => b.data.isNone) .arbitrary 3 (.xorshift 16) 64

/-- the two builds of the example belong together -/
example : DbgOf (DbgB PlainB) (dbgOps (dbgPlain 16 12345)) PlainB exCfg.kops ∧
    DbgOf (DbgB PlainB) (dbgOps (dbgPlain 32 678)) PlainB exCfg.vops := ⟨.plain, .plain⟩

/-- a release build reads the file of a debug build with one pair without noticing; 24 bytes are left, and the pair is lost -/
example : (match Tab.run dbgEx (Tab.new dbgEx 10 20) [.insert 5 6] with
    | .ok (t, _) => (match dbgExCfg.serialize t with
      | .ok bytes => (match exCfg.deserialize (.xorshift 16) (Tab.new (sepMap exCfg (.xorshift 16)) 10 20) bytes with
        | .ok (t', rest) => t.size == 1 && rest.length == 24 && (match t'.lookup (sepMap exCfg (.xorshift 16)) 5 with
          | .ok none => true
          | _ => false)
        | .error _ => false)
      | .error _ => false)
    | .error _ => false) = true := by decide +kernel

/-- a debug build that reads the file of a release build with one pair, where 25 suitable bytes follow: 24 of them are consumed -/
example : (match Tab.run (sepMap exCfg (.xorshift 16)) (Tab.new (sepMap exCfg (.xorshift 16)) 10 20) [.insert 5 6] with
    | .ok (t, _) => (match exCfg.serialize (.xorshift 16) t with
      | .ok bytes => (match dbgExCfg.deserialize (.xorshift 16) (Tab.new dbgEx 10 20)
          (bytes ++ [0, 0, 0, 0, 1, 0, 0, 0, 0, 0, 0, 0, 0, 0, 0, 0, 74, 1, 0, 0, 0, 0, 0, 0, 77]) with
        | .ok (_, rest) => t.size == 1 && rest == [77]
        | .error _ => false)
      | .error _ => false)
    | .error _ => false) = true := by decide +kernel

/-- no debug build reads the file of the release table with 60 pairs -/
example : ∃ t bytes, t.size = 60 ∧ exCfg.serialize (.xorshift 16) t = .ok bytes ∧
    ∀ t0, ∃ e, dbgExCfg.deserialize (.xorshift 16) t0 bytes = .error e := by
  obtain ⟨t, ⟨as, ht⟩, _, h2⟩ := exAfter
  have hr := SepReach.new (p := exCfg) (hk := .xorshift 16) (tr := fun _ v => v % 2 ^ 32) (W := 16) |>.run exOps_valid ht
  obtain ⟨bytes, h3, _⟩ := C32_separate_serialize exOK hr (by omega)
  exact ⟨t, bytes, h2, h3, C96_debug_fails_on_release exOK .plain .plain (by decide) hr (by omega) h3⟩

end SC
