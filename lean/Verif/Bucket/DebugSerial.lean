import Verif.Bucket.Debug
/-!
# Writing and reading buckets in a debug build
-/
namespace SC

/-- What is written can be read back, for buckets with at most 255 cells. -/
structure LawfulSer {B : Type} (ops : BucketOps B) (Rep : B → Nat → Nat → List Nat → Prop) : Prop where
  ser : ∀ b w cap xs, 1 ≤ w → w ≤ 64 → Rep b w cap xs → 0 < xs.length → cap ≤ 255 →
    ∃ bytes, ops.serialize b xs.length w = .ok bytes ∧
      ∀ rest, ∃ b', ops.deserialize xs.length w (bytes ++ rest) = .ok (b', rest) ∧ Rep b' w xs.length xs

theorem LawfulBucket.toSer {B : Type} {ops : BucketOps B} {norm : Nat → Nat → Nat} {Rep : B → Nat → Nat → List Nat → Prop}
    {spare : Bool} {ok : Nat → Nat → Prop} (h : LawfulBucket ops norm Rep spare ok) : LawfulSer ops Rep where
  ser := by
    intro b w cap xs h1 h2 hr h0 _
    obtain ⟨bytes, _, e1, _, _⟩ := h.serialize b w cap xs [] h1 h2 hr h0
    refine ⟨bytes, e1, fun rest => ?_⟩
    obtain ⟨bytes', b', e1', e2', e3'⟩ := h.serialize b w cap xs rest h1 h2 hr h0
    rw [e1] at e1'
    cases e1'
    exact ⟨b', e2', e3'⟩

variable {B : Type} {c : DbgCfg B} {norm : Nat → Nat → Nat} {Rep : B → Nat → Nat → List Nat → Prop} {spare : Bool}

theorem ofBytes_lt64 {x : Nat} (h : x < 2 ^ 64) : ofBytes (toBytes 8 x) = x := by
  rw [ofBytes_toBytes]; exact Nat.mod_eq_of_lt (by simpa using h)

theorem lawful_dbg_ser (L : LawfulCore c.ops norm Rep spare) (S : LawfulSer c.ops Rep) (hc : DbgOK c norm Rep) :
    LawfulSer (dbgOps c) (DbgRep c Rep) where
  ser := by
    intro b w cap xs h1 h2 ⟨hr, hl, hs, h64⟩ h0 hcap
    obtain ⟨bytes, e1, e2⟩ := S.ser _ w cap xs h1 h2 hr h0 hcap
    obtain ⟨l64, s64⟩ := h64 hcap
    have hge := L.cap_ge _ _ _ _ hr
    have hlen : xs.length ≤ b.len := by omega
    cases hb : c.block with
    | none =>
      refine ⟨toBytes 8 b.len ++ bytes, by simp only [dbgOps, hb, ddcheck_ok hlen, e1, ok_bind, pure_eq_ok], fun rest => ?_⟩
      obtain ⟨b', f1, f2⟩ := e2 rest
      refine ⟨⟨b', xs.length, 0⟩, ?_, f2, Nat.le_refl _, (fun sb h => by rw [hb] at h; cases h), fun _ => ⟨?_, Nat.two_pow_pos _⟩⟩
      · simp only [dbgOps, hb, List.append_assoc, takeBytes_append _ _ (toBytes_length _ _), ok_bind, ofBytes_lt64 l64, ddcheck_ok hlen,
          f1, pure_eq_ok]
      · show xs.length < _
        omega
    | some sb =>
      have hp := (hc.block sb hb).1
      have hsb := hs sb hb
      have hblk : ceilDiv (xs.length * w) sb ≤ b.size := by
        have : xs.length * w ≤ cap * w := Nat.mul_le_mul_right _ hge
        unfold ceilDiv
        refine Nat.le_of_lt_succ ((Nat.div_lt_iff_lt_mul hp).mpr ?_)
        rw [Nat.succ_mul]
        omega
      refine ⟨toBytes 8 b.size ++ toBytes 8 b.len ++ bytes, by
        simp only [dbgOps, hb, ddcheck_ok hlen, ddcheck_ok hblk, e1, ok_bind, pure_eq_ok], fun rest => ?_⟩
      obtain ⟨b', f1, f2⟩ := e2 rest
      refine ⟨⟨b', b.len, b.size⟩, ?_, f2, hlen, ?_, fun _ => ⟨l64, s64⟩⟩
      · simp only [dbgOps, hb, List.append_assoc, takeBytes_append _ _ (toBytes_length _ _), ok_bind, ofBytes_lt64 l64,
          ofBytes_lt64 s64, ddcheck_ok hlen, ddcheck_ok hblk, f1, pure_eq_ok]
      · intro sb' h
        exact Nat.le_trans (Nat.mul_le_mul_right _ hge) (hs sb' h)

end SC
