import Verif.Overflow.Array
import Verif.Sep.Serial
/-!
# `array_overflow::serialize` and `deserialize`, overflow.hpp:97-106
-/
namespace SC

/-- `serialize(os)`, overflow.hpp:102-106; `m_elements` has eight bytes, `m_bucketfull` is not written.  Release builds. -/
def ArrOv.serialize (c : ArrEnv) (o : ArrOv) : Res (List Nat) := do
  let ks ← (plainOps c.ks).serialize o.keys o.elems 0
  let vs ← (plainOps c.vs).serialize o.vals o.elems 0
  return toBytes 8 o.elems ++ ks ++ vs

/-- `deserialize(is)`, overflow.hpp:97-101: the new arrays have `m_elements` entries, not `m_length`.  (That the old arrays are not
freed is not part of the model.) -/
def ArrOv.deserialize (c : ArrEnv) (o : ArrOv) (is : List Nat) : Res (ArrOv × List Nat) := do
  let (el, is) ← takeBytes 8 is
  let (ks, is) ← (plainOps c.ks).deserialize (ofBytes el) 0 is
  let (vs, is) ← (plainOps c.vs).deserialize (ofBytes el) 0 is
  return ({ o with keys := ks, vals := vs, elems := ofBytes el }, is)

variable {c : ArrEnv} {o : ArrOv} {l : List (Nat × Nat)}

/-- reading gives arrays that hold the pairs and nothing else; the other members are those of the object read into -/
theorem ArrRep.serialize (h : ArrRep c o l) (hk : 8 ∣ c.ks) (hv : 8 ∣ c.vs) :
    ∃ bytes, o.serialize c = .ok bytes ∧ ∀ (o0 : ArrOv) (rest : List Nat), o0.deserialize c (bytes ++ rest) =
      .ok ({ o0 with keys := some (l.map (fun e => some e.1)), vals := some (l.map (fun e => some e.2)), elems := l.length }, rest) := by
  obtain ⟨h1, ⟨r1, h2, h3⟩, ⟨r2, h4, h5⟩, hlt⟩ := h
  obtain ⟨kb, k1, k2⟩ := plainSerialize_eq hk (l.map Prod.fst) (by
    intro y hy
    obtain ⟨e, he, rfl⟩ := List.mem_map.mp hy
    exact (hlt e he).1) [] r1
  obtain ⟨vb, v1, v2⟩ := plainSerialize_eq hv (l.map Prod.snd) (by
    intro y hy
    obtain ⟨e, he, rfl⟩ := List.mem_map.mp hy
    exact (hlt e he).2) [] r2
  have ek : (l.map Prod.fst).map some = l.map (fun e => some e.1) := by simp
  have ev : (l.map Prod.snd).map some = l.map (fun e => some e.2) := by simp
  rw [ek] at k1 k2
  rw [ev] at v1 v2
  simp only [List.nil_append, List.length_nil, List.length_map] at k1 k2 v1 v2
  have hl : l.length < 2 ^ 64 := by
    have : (256 : Nat) < 2 ^ 64 := by decide
    have : l.length ≤ 256 := by show l.length ≤ arrLength; omega
    omega
  refine ⟨toBytes 8 l.length ++ kb ++ vb, ?_, ?_⟩
  · simp only [ArrOv.serialize, plainOps, h1, h2, h4, k1, v1, ok_bind, pure_eq_ok]
  · intro o0 rest
    have a : toBytes 8 l.length ++ kb ++ vb ++ rest = toBytes 8 l.length ++ (kb ++ (vb ++ rest)) := by simp only [List.append_assoc]
    rw [a]
    simp only [ArrOv.deserialize, plainOps, takeBytes_append _ _ (toBytes_length _ _), ok_bind, ofBytes8 hl, k2, v2, pure_eq_ok]

end SC
