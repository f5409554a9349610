import Verif.Overflow.ArrayDebug
import Verif.Sep.DebugSerial
import Verif.Sep.SerialOv
/-!
# `serialize` and `deserialize` of `separate_chaining_table` with `array_overflow` in a debug build
-/
namespace SC

/-- `plain_bucket::serialize(os, size, 0)` in a debug build, bucket.hpp:208-212: `m_length` comes first -/
def PlainB.dbgSer (sbits : Nat) (b : PlainB) (n : Nat) : Res (List Nat) := do
  ddcheck true (n ≤ b.len)
  let s ← (plainOps sbits).serialize b n 0
  return toBytes 8 b.len ++ s

/-- `plain_bucket::deserialize(is, size, 0)` in a debug build, bucket.hpp:202-207, with `initialize`, bucket.hpp:240-244, which sets
`m_length` again -/
def PlainB.dbgDeser (sbits : Nat) (b : PlainB) (n : Nat) (is : List Nat) : Res (PlainB × List Nat) := do
  let (len, is) ← takeBytes 8 is
  ddcheck true (n ≤ ofBytes len)
  ddcheck true (b.isNone = true)
  (plainOps sbits).deserialize n 0 is

/-- `array_overflow::serialize(os)` in a debug build, overflow.hpp:102-106 -/
def ArrOv.dbgSerialize (c : ArrEnv) (o : ArrOv) : Res (List Nat) := do
  let ks ← o.keys.dbgSer c.ks o.elems
  let vs ← o.vals.dbgSer c.vs o.elems
  return toBytes 8 o.elems ++ ks ++ vs

/-- `array_overflow::deserialize(is)` in a debug build, overflow.hpp:97-101 -/
def ArrOv.dbgDeserialize (c : ArrEnv) (o : ArrOv) (is : List Nat) : Res (ArrOv × List Nat) := do
  let (el, is) ← takeBytes 8 is
  let (ks, is) ← o.keys.dbgDeser c.ks (ofBytes el) is
  let (vs, is) ← o.vals.dbgDeser c.vs (ofBytes el) is
  return ({ o with keys := ks, vals := vs, elems := ofBytes el }, is)

variable {KB VB : Type}

/-- `serialize(os)`, sep:790-808: the overflow table comes first, sep:791 -/
def SepDbgCfg.serializeArr (c : SepDbgCfg KB VB) (a : ArrEnv) (t : Tab (SepDbg KB VB) ArrOv) : Res (List Nat) := do
  let o ← t.ovf.dbgSerialize a
  let r ← c.serialize t.bare
  return o ++ r

/-- `deserialize(is)`, sep:809-850: `clear`, `m_overflow.deserialize(is)`, then the rest.  `reserve` calls `resize_buckets` before
the buckets are read (sep:431); here it is executed last, which makes no difference. -/
def SepDbgCfg.deserializeArr (c : SepDbgCfg KB VB) (hk : HashKind) (a : ArrEnv) (t : Tab (SepDbg KB VB) ArrOv) (is : List Nat) :
    Res (Tab (SepDbg KB VB) ArrOv × List Nat) := do
  let (o, is) ← ((arrOverflow a).clear t.ovf).dbgDeserialize a is
  let (u, is) ← c.deserialize hk t.bare is
  let o ← (arrOverflow a).resizeBuckets o (2 ^ u.tb)
  return (u.dress o, is)

/-! ## The overflow table -/

variable {a : ArrEnv} {o : ArrOv} {l : List (Nat × Nat)}

theorem ArrRep.klen (h : ArrRep a o l) : o.keys.len = arrLength ∧ o.vals.len = arrLength := by
  obtain ⟨r1, h1, h2⟩ := h.keys
  obtain ⟨r2, h3, h4⟩ := h.vals
  rw [h1, h3]
  exact ⟨by simpa [PlainB.len] using h2, by simpa [PlainB.len] using h4⟩

/-- the overflow table is read back without a failing assertion, but its arrays have no room for further elements -/
theorem ArrRep.dbgSerialize (h : ArrRep a o l) (hk : 8 ∣ a.ks) (hv : 8 ∣ a.vs) :
    ∃ bytes, o.dbgSerialize a = .ok bytes ∧ ∀ (o0 : ArrOv) (rest : List Nat), ((arrOverflow a).clear o0).dbgDeserialize a (bytes ++ rest) =
      .ok ({ o0 with keys := some (l.map (fun e => some e.1)), vals := some (l.map (fun e => some e.2)), elems := l.length }, rest) := by
  obtain ⟨l1, l2⟩ := h.klen
  obtain ⟨h1, ⟨r1, h2, h3⟩, ⟨r2, h4, h5⟩, hlt⟩ := h
  obtain ⟨kb, k1, k2⟩ := plainSerialize_eq hk (l.map Prod.fst) (by
    intro y hy
    obtain ⟨e, he, rfl⟩ := List.mem_map.mp hy
    exact (hlt e he).1) [] r1
  obtain ⟨vb, v1, v2⟩ := plainSerialize_eq hv (l.map Prod.snd) (by
    intro y hy
    obtain ⟨e, he, rfl⟩ := List.mem_map.mp hy
    exact (hlt e he).2) [] r2
  have ek : (l.map Prod.fst).map some = l.map (fun e => some e.1) := by simp
  have ev : (l.map Prod.snd).map some = l.map (fun e => some e.2) := by simp
  rw [ek] at k1 k2
  rw [ev] at v1 v2
  simp only [List.nil_append, List.length_nil, List.length_map] at k1 k2 v1 v2
  rw [← h2] at k1
  rw [← h4] at v1
  have hle : l.length ≤ arrLength := by omega
  have hl : l.length < 2 ^ 64 := by
    have : arrLength < 2 ^ 64 := by decide
    omega
  refine ⟨toBytes 8 l.length ++ (toBytes 8 arrLength ++ kb) ++ (toBytes 8 arrLength ++ vb), ?_, ?_⟩
  · simp only [ArrOv.dbgSerialize, PlainB.dbgSer, plainOps, h1, l1, l2, ddcheck_ok hle, k1, v1, ok_bind, pure_eq_ok]
  · intro o0 rest
    have a1 : toBytes 8 l.length ++ (toBytes 8 arrLength ++ kb) ++ (toBytes 8 arrLength ++ vb) ++ rest =
      toBytes 8 l.length ++ (toBytes 8 arrLength ++ (kb ++ (toBytes 8 arrLength ++ (vb ++ rest)))) := by simp only [List.append_assoc]
    rw [a1]
    have h8 : ofBytes (toBytes 8 arrLength) = arrLength := ofBytes8 (by decide)
    simp only [ArrOv.dbgDeserialize, PlainB.dbgDeser, arrOverflow, plainOps, Option.isNone_none, takeBytes_append _ _ (toBytes_length _ _), ok_bind,
      ofBytes8 hl, h8, ddcheck_ok hle, ddcheck_ok trivial, k2, v2, pure_eq_ok]

/-! ## The rest of the file -/

variable {c : SepDbgCfg KB VB} {hk : HashKind}

/-- the number of elements stands at a fixed place -/
theorem dbgSer_elems {t : Tab (SepDbg KB VB) Unit} {n : Nat} {bytes : List Nat} (h : c.serialize { t with elems := n } = .ok bytes) :
    ∃ r, bytes = toBytes 1 t.kw ++ (toBytes 1 t.vw ++ (toBytes 1 t.tb ++ (toBytes 8 n ++ r))) ∧
      c.serialize t = .ok (toBytes 1 t.kw ++ (toBytes 1 t.vw ++ (toBytes 1 t.tb ++ (toBytes 8 t.elems ++ r)))) := by
  unfold SepDbgCfg.serialize at h ⊢
  obtain ⟨_, h1, h⟩ := bind_eq_ok h
  obtain ⟨sizes, h2, h⟩ := bind_eq_ok h
  obtain ⟨r, h3, h⟩ := bind_eq_ok h
  cases h
  have h1 : ddcheck true (c.remOK t.kw t.tb = true) = .ok _ := h1
  have h2 : (List.range t.bucketCount).mapM (fun b => (do
    let x ← t.store.base.get b
    return x.size % 256 : Res Nat)) = .ok sizes := h2
  have h3 : c.serBuckets t.store (t.dim (sepDbgTable c)) (List.range t.bucketCount) = .ok r := h3
  refine ⟨sizes ++ r, by simp only [List.append_assoc], ?_⟩
  rw [h1, ok_bind, h2, ok_bind, h3, ok_bind, pure_eq_ok]
  simp only [List.append_assoc]

/-- `DDCHECK_EQ(m_elements, restored_elements)` fails if another number of elements stands in the file -/
theorem dbgDeser_elems {t0 t' : Tab (SepDbg KB VB) Unit} {kw vw tb n m : Nat} {r rest : List Nat} (hn : n < 2 ^ 64) (hm : m < 2 ^ 64)
    (h : c.deserialize hk t0 (toBytes 1 kw ++ (toBytes 1 vw ++ (toBytes 1 tb ++ (toBytes 8 n ++ r)))) = .ok (t', rest)) (hne : m ≠ n) :
    c.deserialize hk t0 (toBytes 1 kw ++ (toBytes 1 vw ++ (toBytes 1 tb ++ (toBytes 8 m ++ r)))) = .error .exc := by
  unfold SepDbgCfg.deserialize at h ⊢
  simp only [takeBytes_append _ _ (toBytes_length _ _), ok_bind, ofBytes8 hn, ofBytes8 hm] at h ⊢
  obtain ⟨_, h1, h⟩ := bind_eq_ok h
  rw [h1, ok_bind]
  obtain ⟨_, h2, h⟩ := bind_eq_ok h
  rw [h2, ok_bind]
  obtain ⟨t1, h3, h⟩ := bind_eq_ok h
  rw [h3, ok_bind]
  obtain ⟨_, h4, h⟩ := bind_eq_ok h
  rw [h4, ok_bind]
  obtain ⟨_, h5, h⟩ := bind_eq_ok h
  rw [h5, ok_bind]
  obtain ⟨⟨sizes, is⟩, h6, h⟩ := bind_eq_ok h
  have h6 : takeBytes (Tab.bucketCount { t1 with elems := m }) r = .ok (sizes, is) := h6
  rw [h6, ok_bind]
  obtain ⟨⟨s, restored, is'⟩, h7, h⟩ := bind_eq_ok h
  obtain ⟨_, h8, h⟩ := bind_eq_ok h
  have hr : n = restored := by
    by_cases e : n = restored
    · exact e
    · have h8 : ddcheck true (n = restored) = .ok _ := h8
      rw [ddcheck_fails e] at h8
      cases h8
  subst hr
  refine Eq.trans (congrArg (fun x => x >>= _) h7) ?_
  rw [ok_bind]
  show (ddcheck true (m = n) >>= _) = _
  rw [ddcheck_fails hne, error_bind]

end SC
