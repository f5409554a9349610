import Verif.Overflow.MapDebug
import Verif.Overflow.MapSerial
import Verif.Sep.DebugSerialOv
/-!
# `serialize` and `deserialize` of `separate_chaining_table` with `map_overflow` in a debug build
-/
namespace SC
variable {KB VB : Type}

/-- `serialize(os)`, sep:790-808, in a debug build: the overflow table comes first, sep:791; `map_overflow::serialize` has no assertions -/
def SepDbgCfg.serializeMap (c : SepDbgCfg KB VB) (e : MapFileEnv) (t : Tab (SepDbg KB VB) MapOv) : Res (List Nat) := do
  let o ← t.ovf.serialize e
  let r ← c.serialize t.bare
  return o ++ r

/-- `deserialize(is)`, sep:809-850, in a debug build: `clear`, `m_overflow.deserialize(is)`, which has no assertions, then the rest.  `reserve` calls
`resize_buckets` before the buckets are read (sep:431); here it is executed last, which makes no difference: all failing assertions give the same
fault. -/
def SepDbgCfg.deserializeMap (c : SepDbgCfg KB VB) (hk : HashKind) (m : MapEnv) (e : MapFileEnv) (t : Tab (SepDbg KB VB) MapOv) (is : List Nat) :
    Res (Tab (SepDbg KB VB) MapOv × List Nat) := do
  let (o, is) ← ((mapOverflowDbg m).clear t.ovf).deserialize m e is
  let (u, is) ← c.deserialize hk t.bare is
  let o ← (mapOverflowDbg m).resizeBuckets o (2 ^ u.tb)
  return (u.dress o, is)

/-! ## Reading what was written -/

variable {c : MapEnv} {e : MapFileEnv}

/-- `n` pairs are read from the bytes of `n` pairs -/
theorem MapOv.readPairs_any : ∀ (bs : List (List Nat)) (o : MapOv) (rest : List Nat), (∀ b ∈ bs, b.length = e.kbytes + e.vbytes) →
    ∃ o', MapOv.readPairs c e bs.length o (bs.flatten ++ rest) = .ok (o', rest) := by
  intro bs
  induction bs with
  | nil => intro o rest _; exact ⟨o, rfl⟩
  | cons b bs ih =>
    intro o rest h
    have hb := h b (by simp)
    have e1 : b = b.take e.kbytes ++ b.drop e.kbytes := (List.take_append_drop _ _).symm
    have l1 : (b.take e.kbytes).length = e.kbytes := by rw [List.length_take]; omega
    have l2 : (b.drop e.kbytes).length = e.vbytes := by rw [List.length_drop]; omega
    obtain ⟨o', ho⟩ := ih (o.put c (ofBytes (b.take e.kbytes)) (ofBytes (b.drop e.kbytes))) rest (fun b hb => h b (by simp [hb]))
    refine ⟨o', ?_⟩
    rw [List.flatten_cons, List.append_assoc, List.length_cons, MapOv.readPairs]
    conv => lhs; rw [e1, List.append_assoc]
    rw [takeBytes_append _ _ l1, ok_bind]
    dsimp only
    rw [takeBytes_append _ _ l2, ok_bind]
    exact ho

/-- If keys and values have the same size, reading consumes exactly the bytes that `serialize` has written for the overflow table. -/
theorem MapOv.serialize_consumed (he : e.good) (hkv : e.kbytes = e.vbytes) (hp : ∀ a s, e.peek a e.kbytes = some s → s.length = e.kbytes)
    {o : MapOv} (hlen : o.items.length < 2 ^ 64) {bytes : List Nat} (h : o.serialize e = .ok bytes) (o0 : MapOv) (rest : List Nat) :
    ∃ o', o0.deserialize c e (bytes ++ rest) = .ok (o', rest) := by
  unfold MapOv.serialize at h
  obtain ⟨body, h1, h2⟩ := bind_eq_ok h
  cases h2
  have hw : ∀ k s, e.writeAt k = .ok s → s.length = e.kbytes := by
    intro k s hs
    unfold MapFileEnv.writeAt at hs
    cases hk : e.peek k e.kbytes with
    | none => rw [hk] at hs; cases hs
    | some s' => rw [hk] at hs; cases hs; exact hp k _ hk
  have key : ∀ (ks : List Nat) (body : List (List Nat)), ks.mapM (fun k => do
      let a ← e.writeAt k
      let b ← e.writeAt k
      return a ++ b) = .ok body → body.length = ks.length ∧ ∀ b ∈ body, b.length = e.kbytes + e.vbytes := by
    intro ks
    induction ks with
    | nil => intro body h; cases h; exact ⟨rfl, by simp⟩
    | cons k ks ih =>
      intro body h
      rw [List.mapM_cons] at h
      obtain ⟨x, hx, h⟩ := bind_eq_ok h
      obtain ⟨xs, hxs, h⟩ := bind_eq_ok h
      cases h
      obtain ⟨a, ha, hx⟩ := bind_eq_ok hx
      obtain ⟨b, hb, hx⟩ := bind_eq_ok hx
      cases hx
      obtain ⟨i1, i2⟩ := ih xs hxs
      refine ⟨by simp [i1], ?_⟩
      intro y hy
      rcases List.mem_cons.mp hy with hy | hy
      · rw [hy, List.length_append, hw _ _ ha, hw _ _ hb, ← hkv]
      · exact i2 y hy
  obtain ⟨k1, k2⟩ := key _ _ h1
  rw [(he _ _).length_eq, List.length_map] at k1
  obtain ⟨o', ho⟩ := MapOv.readPairs_any (c := c) (e := e) body { o0 with count := c.grow o0.count o.items.length } rest k2
  refine ⟨o', ?_⟩
  simp only [MapOv.deserialize, List.append_assoc, takeBytes_append _ _ (toBytes_length _ _), ok_bind, ofBytes8 hlen]
  rw [← k1] at ho ⊢
  exact ho

end SC
