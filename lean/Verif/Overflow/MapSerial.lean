import Verif.Overflow.Map
import Verif.Group.SerialOv
/-!
# `map_overflow::serialize` and `deserialize`, overflow.hpp:211-231, and those of the tables that call them
-/
namespace SC
variable {KB VB S : Type}

/-- What the environment decides when a `map_overflow` is written. -/
structure MapFileEnv where
  /-- `sizeof(key_type)` and `sizeof(value_type)` -/
  kbytes : Nat
  vbytes : Nat
  /-- the keys in the order of the loop `for(auto& el : m_map)`, from `bucket_count()` -/
  visit : (count : Nat) → List Nat → List Nat
  /-- What is read from the memory of the process if a number is used as an address, as in `reinterpret_cast<char*>(el.first)`.  C++ does not
  define this; `none`: the process is terminated. -/
  peek : (address bytes : Nat) → Option (List Nat)

/-- the loop visits each element once -/
def MapFileEnv.good (e : MapFileEnv) : Prop := ∀ n ks, (e.visit n ks).Perm ks

/-- `os.write(reinterpret_cast<char*>(el.first), sizeof(decltype(el.first)))`, overflow.hpp:228 and 229: the key itself is the address -/
def MapFileEnv.writeAt (e : MapFileEnv) (k : Nat) : Res (List Nat) :=
  match e.peek k e.kbytes with
  | some bytes => .ok bytes
  | none => .error .undef

/-- `serialize(os)`, overflow.hpp:224-231: both statements of the loop use `el.first` -/
def MapOv.serialize (e : MapFileEnv) (o : MapOv) : Res (List Nat) := do
  let body ← (e.visit o.count (o.items.map Prod.fst)).mapM (fun k => do
    let a ← e.writeAt k
    let b ← e.writeAt k
    return a ++ b)
  return toBytes 8 o.items.length ++ body.flatten

/-- the loop of `deserialize`, overflow.hpp:215-221 -/
def MapOv.readPairs (c : MapEnv) (e : MapFileEnv) : Nat → MapOv → List Nat → Res (MapOv × List Nat)
  | 0, o, is => .ok (o, is)
  | n + 1, o, is => do
    let (k, is) ← takeBytes e.kbytes is
    let (v, is) ← takeBytes e.vbytes is
    MapOv.readPairs c e n (o.put c (ofBytes k) (ofBytes v)) is

/-- `deserialize(is)`, overflow.hpp:211-223; neither `m_map` nor `m_bucketfull` is cleared -/
def MapOv.deserialize (c : MapEnv) (e : MapFileEnv) (o : MapOv) (is : List Nat) : Res (MapOv × List Nat) := do
  let (el, is) ← takeBytes 8 is
  MapOv.readPairs c e (ofBytes el) { o with count := c.grow o.count (ofBytes el) } is

/-- `separate_chaining_table::serialize(os)`, sep:790-808: the overflow table comes first, sep:791 -/
def SepCfg.serializeMap (p : SepCfg KB VB) (hk : HashKind) (e : MapFileEnv) (t : Tab (SepStore KB VB) MapOv) : Res (List Nat) := do
  let o ← t.ovf.serialize e
  let r ← p.serialize hk t.bare
  return o ++ r

/-- `deserialize(is)`, sep:809-850: `clear`, `m_overflow.deserialize(is)`, then the rest.  `reserve` calls `resize_buckets` before
the buckets are read (sep:431); here it is executed last, which makes no difference. -/
def SepCfg.deserializeMap (p : SepCfg KB VB) (hk : HashKind) (c : MapEnv) (e : MapFileEnv) (t : Tab (SepStore KB VB) MapOv) (is : List Nat) :
    Res (Tab (SepStore KB VB) MapOv × List Nat) := do
  let (o, is) ← ((mapOverflow c).clear t.ovf).deserialize c e is
  let (u, is) ← p.deserialize hk t.bare is
  let o ← (mapOverflow c).resizeBuckets o (2 ^ u.tb)
  return (u.dress o, is)

/-- `group_chaining_table::serialize(os)`, grp:1420-1445: the overflow table comes first, grp:1421 -/
def grpSerializeMap (gc : GrpCfg) (hk : HashKind) (e : MapFileEnv) (t : Tab GrpStore MapOv) : Res (List Nat) := do
  let o ← t.ovf.serialize e
  let r ← grpSerialize gc hk t.bare
  return o ++ r

/-- `deserialize(is)`, grp:1449-1509, like `SepCfg.deserializeMap`; `reserve`, which calls `resize_buckets`, is only called if there are elements
(grp:1461-1463) -/
def grpDeserializeMap (gc : GrpCfg) (hk : HashKind) (c : MapEnv) (e : MapFileEnv) (t : Tab GrpStore MapOv) (is : List Nat) :
    Res (Tab GrpStore MapOv × List Nat) := do
  let (o, is) ← ((mapOverflow c).clear t.ovf).deserialize c e is
  let (u, is) ← grpDeserialize gc hk t.bare is
  let o ← (if u.elems = 0 then .ok o else (mapOverflow c).resizeBuckets o (2 ^ u.tb) : Res MapOv)
  return (u.dress o, is)

/-! ## An empty overflow table -/

variable {c : MapEnv} {e : MapFileEnv}

theorem MapOv.serialize_empty (he : e.good) {o : MapOv} (h : o.items = []) : o.serialize e = .ok (toBytes 8 0) := by
  have hv : e.visit o.count [] = [] := List.perm_nil.mp (he _ _)
  unfold MapOv.serialize
  rw [h, List.map_nil, hv]
  rfl

theorem MapOv.deserialize_empty (o : MapOv) (rest : List Nat) : o.deserialize c e (toBytes 8 0 ++ rest) = .ok ({ o with count := c.grow o.count 0 }, rest) := by
  simp only [MapOv.deserialize, takeBytes_append _ _ (toBytes_length _ _), ok_bind, ofBytes8 (show 0 < 2 ^ 64 by omega), MapOv.readPairs]

/-! ## An overflow table in use -/

/-- the file depends on the keys only -/
theorem MapOv.serialize_congr {o o' : MapOv} (h1 : o'.items.map Prod.fst = o.items.map Prod.fst) (h2 : o'.count = o.count) :
    o'.serialize e = o.serialize e := by
  have h3 : o'.items.length = o.items.length := by
    have := congrArg List.length h1
    simpa using this
  unfold MapOv.serialize
  rw [h1, h2, h3]

/-- if one of the keys is not an address that can be read, writing fails -/
theorem MapOv.serialize_fails (he : e.good) {o : MapOv} {x : Nat × Nat} (h : x ∈ o.items) (hp : e.peek x.1 e.kbytes = none) : o.serialize e = .error .undef := by
  have hm : x.1 ∈ e.visit o.count (o.items.map Prod.fst) := (he _ _).mem_iff.mpr (List.mem_map_of_mem h)
  unfold MapOv.serialize
  generalize e.visit o.count (o.items.map Prod.fst) = ks at hm
  have : ∀ ks : List Nat, x.1 ∈ ks → ks.mapM (fun k => do
      let a ← e.writeAt k
      let b ← e.writeAt k
      return a ++ b) = (.error .undef : Res (List (List Nat))) := by
    intro ks
    induction ks with
    | nil => intro h; cases h
    | cons k ks ih =>
      intro h
      rw [List.mapM_cons]
      cases hk : e.peek k e.kbytes with
      | none => simp only [MapFileEnv.writeAt, hk, error_bind]
      | some bs =>
        have hks : x.1 ∈ ks := by
          rcases List.mem_cons.mp h with h | h
          · rw [h, hk] at hp; cases hp
          · exact h
        simp only [MapFileEnv.writeAt, hk, ok_bind, pure_eq_ok]
        have := ih hks
        simp only [MapFileEnv.writeAt, pure_eq_ok] at this
        rw [this, error_bind]
  rw [this ks hm, error_bind]

variable {g : Cfg S MapOv} {P : Par S MapOv}

/-- Overwriting the value of an element in the overflow table through the navigator that `find` returns. -/
theorem spilled_write (hc : c.good) (L : Laws g P) (hov : g.ov = mapOverflow c) (hrep : P.RepO = MapRep c) {t : Tab S MapOv} {l : List (Nat × Nat)} (h : Inv g P t l) {k y : Nat}
    (hm : (k, y) ∈ t.ovf.items) {v : Nat} (hv : P.normO v = P.norm P.vw v) :
    ∃ n o', t.find g k = .ok n ∧ t.writeValue g n v = .ok { t with ovf := o' } ∧ o'.items.map Prod.fst = t.ovf.items.map Prod.fst ∧
      o'.count = t.ovf.count ∧ Tab.lookup g { t with ovf := o' } k = .ok (some (k, P.norm P.vw v)) := by
  rcases h with ⟨_, _, _, _, _, _, _, _, n, full, h7⟩ | ⟨cn, o, full, hl, hp⟩
  · rw [hrep] at h7
    have := h7.perm.length_eq
    rw [List.length_map, List.length_nil] at this
    rw [List.eq_nil_of_length_eq_zero this.symm] at hm
    cases hm
  · have horep := hl.orep
    rw [hrep] at horep
    obtain ⟨a, ha, hae⟩ := List.mem_map.mp (horep.perm.mem_iff.mpr hm)
    obtain ⟨p, k', y'⟩ := a
    simp only [Prod.mk.injEq] at hae
    obtain ⟨rfl, rfl⟩ := hae
    have hloc : Loc g P t cn o ⟨2 ^ t.tb, p⟩ k' y' := .inr ⟨p, rfl, ha⟩
    have hk : k' < 2 ^ P.kw := (hl.cok.osrc _ ha).1
    obtain ⟨t', c', o', w1, w2, w3, w4, R, w5, w6⟩ := hl.writeValue L hloc hv
    have hfind : t.find g k' = .ok ⟨2 ^ t.tb, p⟩ := by
      have h0 : 0 < g.ov.size t.ovf := by rw [hl.osize L]; exact List.length_pos_of_mem ha
      have hf := L.ovf.find_in _ _ _ _ _ hl.orep ha
      have hpos := L.ovf.pos _ _ _ _ _ hl.orep ha
      unfold Tab.find
      rw [if_neg (by have := hl.tb_pos L; omega), if_pos h0, hf]
      simp only [ok_bind, if_pos (show p ≠ NPOS from Nat.ne_of_lt hpos), hl.bc L]
      rfl
    have hw : g.ov.write t.ovf p v = .ok { t.ovf with items := t.ovf.items.map (fun x => if x.1 = k' then (x.1, c.val v) else x) } := by
      rw [hov]
      simp only [mapOverflow, horep.entry hc ha, ok_bind]
      rfl
    have ht' : t' = { t with ovf := { t.ovf with items := t.ovf.items.map (fun x => if x.1 = k' then (x.1, c.val v) else x) } } := by
      simp only [Tab.writeValue, hl.bc L, if_true, hw, ok_bind, pure_eq_ok] at w1
      exact (Except.ok.inj w1).symm
    have hi' : Inv g P t' ((k', P.norm P.vw v) :: R) := .inr ⟨c', o', full, w2, by rw [w3]; exact w6.symm⟩
    subst ht'
    refine ⟨_, _, hfind, w1, ?_, rfl, ?_⟩
    · rw [List.map_map]
      refine List.map_congr_left fun x _ => ?_
      simp only [Function.comp_def]
      split <;> rfl
    · rcases hi'.find L hk with ⟨n, x, h1, h2, h3, h4, h5⟩ | ⟨h1, h2, h3⟩
      · have hx : x = P.norm P.vw v := by
          rcases List.mem_cons.mp h2 with h2 | h2
          · exact (Prod.mk.inj h2).2
          · have := hi'.nodup L
            rw [List.map_cons, List.nodup_cons] at this
            exact absurd (List.mem_map_of_mem (f := Prod.fst) h2) this.1
        subst hx
        simp only [Tab.lookup, h1, h3, ok_bind, h4, h5]
        rfl
      · exact absurd (by simp) h3

end SC
