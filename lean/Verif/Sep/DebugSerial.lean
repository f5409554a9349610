import Verif.Sep.DebugTable
import Verif.Sep.Serial
/-!
# `serialize` and `deserialize` of `separate_chaining_table` in a debug build
-/
namespace SC

variable {KB VB : Type}

/-- the loop over the buckets in `serialize`, sep:802-807: in a debug build the plain keys follow the keys and the values -/
def SepDbgCfg.serBuckets (c : SepDbgCfg KB VB) (s : SepDbg KB VB) (d : Dim) : List Nat → Res (List Nat)
  | [] => .ok []
  | b :: bs => do
    let x ← s.base.get b
    if x.size = 0 then c.serBuckets s d bs
    else
      let ks ← c.p.kops.serialize x.keys x.size d.qw
      let vs ← c.p.vops.serialize x.vals x.size d.vw
      let ps ← (plainOps c.kbits).serialize (s.plain b) x.size d.kw
      let r ← c.serBuckets s d bs
      return ks ++ vs ++ ps ++ r

/-- `serialize(os)`, sep:790-808, with the test of `remainder_width` (hash.hpp:57) -/
def SepDbgCfg.serialize (c : SepDbgCfg KB VB) (t : Tab (SepDbg KB VB) Unit) : Res (List Nat) := do
  ddcheck true (c.remOK t.kw t.tb = true)
  let sizes ← (List.range t.bucketCount).mapM (fun b => do
    let x ← t.store.base.get b
    return x.size % 256)
  let r ← c.serBuckets t.store (t.dim (sepDbgTable c)) (List.range t.bucketCount)
  return toBytes 1 t.kw ++ toBytes 1 t.vw ++ toBytes 1 t.tb ++ toBytes 8 t.elems ++ sizes ++ r

/-- the loop over the keys of a bucket in `deserialize`, sep:840-844; `n` iterations are left -/
def SepDbgCfg.checkPlain (c : SepDbgCfg KB VB) (d : Dim) (b : Nat) (keys : KB) (plain : PlainB) : (i n : Nat) → Res Unit
  | _, 0 => .ok ()
  | i, n + 1 => do
    let x ← c.p.kops.read keys i d.qw
    let k ← (c.hash d.kw).invMap (x % 2 ^ c.kbits) b d.tb
    let k' ← cellRead plain i
    ddcheck true (k % 2 ^ c.kbits = k')
    c.checkPlain d b keys plain (i + 1) n

/-- the loop over the buckets in `deserialize`, sep:829-848; the third component is `restored_elements`.  The test
`m_data == nullptr` of `initialize` (bucket.hpp:90, 241) is executed for all bucket classes, although `varwidth_bucket` does not have it:
the buckets are new ones. -/
def SepDbgCfg.deserBuckets (c : SepDbgCfg KB VB) (d : Dim) : SepDbg KB VB → (restored : Nat) → List Nat → List Nat →
    Res (SepDbg KB VB × Nat × List Nat)
  | s, n, [], is => .ok (s, n, is)
  | s, n, b :: bs, is => do
    let x ← s.base.get b
    if x.size = 0 then c.deserBuckets d s n bs is
    else
      ddcheck true (c.knull x.keys = true)
      let (ks, is) ← c.p.kops.deserialize x.size d.qw is
      ddcheck true (c.vnull x.vals = true)
      let (vs, is) ← c.p.vops.deserialize x.size d.vw is
      let (pl, is) ← (plainOps c.kbits).deserialize x.size d.kw is
      c.checkPlain d b ks pl 0 x.size
      c.deserBuckets d ⟨s.base.set b { x with keys := ks, vals := vs }, upd s.plain b pl⟩ (n + x.size) bs is

/-- `deserialize(is)`, sep:809-850 -/
def SepDbgCfg.deserialize (c : SepDbgCfg KB VB) (hk : HashKind) (t : Tab (SepDbg KB VB) Unit) (is : List Nat) :
    Res (Tab (SepDbg KB VB) Unit × List Nat) := do
  let t := t.clear (sepDbgTable c)
  let (kw, is) ← takeBytes 1 is
  let (vw, is) ← takeBytes 1 is
  hk.dbgNew (ofBytes kw)
  let t := { t with kw := ofBytes kw, vw := ofBytes vw, bpg := 1 }
  let (tb, is) ← takeBytes 1 is
  let n ← shl64 1 (ofBytes tb)
  let t ← t.reserve (sepDbgTable c) n
  ddcheck true (t.tb = ofBytes tb)
  let (el, is) ← takeBytes 8 is
  let t := { t with elems := ofBytes el }
  ddcheck true (c.remOK t.kw t.tb = true)
  let (sizes, is) ← takeBytes t.bucketCount is
  let s : SepStore KB VB := { t.store.base with bkt := fun b => { t.store.base.bkt b with size := (sizes[b]?).getD (t.store.base.bkt b).size } }
  let (s, restored, is) ← c.deserBuckets (t.dim (sepDbgTable c)) { t.store with base := s } 0 (List.range t.bucketCount) is
  ddcheck true (t.elems = restored)
  return ({ t with store := s }, is)

/-! ## Round trip -/

variable {c : SepDbgCfg KB VB} {hk : HashKind} {vbits : Nat} {tr : Nat → Nat → Nat} {tight : Bool} {W kw vw lo hi : Nat}
  {knorm : Nat → Nat → Nat} {kok : Nat → Nat → Prop} {KRep : KB → Nat → Nat → List Nat → Prop} {VRep : VB → Nat → Nat → List Nat → Prop}

theorem checkPlain_ok (hK : LawfulCore c.p.kops knorm KRep false kok) {d : Dim} {b cap : Nat} {keys : KB} {pl : PlainB}
    {xs : List (Nat × Nat)} (h1 : 1 ≤ d.qw) (h2 : d.qw ≤ 64) (hr : KRep keys d.qw cap (xs.map Prod.fst))
    (hp : PlainKeys (c.hash d.kw) c.kbits kw d.tb b pl xs) (hlt : ∀ e ∈ xs, e.1 < 2 ^ c.kbits) :
    ∀ (n i : Nat), i + n = xs.length → c.checkPlain d b keys pl i n = .ok () := by
  intro n
  induction n with
  | zero => intro i _; rfl
  | succ n ih =>
    intro i hi
    have hi' : i < xs.length := by omega
    have hread := hK.read keys d.qw cap _ i h1 h2 hr (by simpa using hi')
    obtain ⟨k, e1, e2, e3⟩ := hp.read hi'
    have hq : xs[i].1 % 2 ^ c.kbits = xs[i].1 := Nat.mod_eq_of_lt (hlt _ (List.getElem_mem hi'))
    simp only [SepDbgCfg.checkPlain, hread, ok_bind, List.getElem_map, hq, e1, e3, e2, ddcheck_ok]
    exact ih (i + 1) (by omega)

/-- number of entries in some buckets -/
def lenSum (cont : Cont) (bs : List Nat) : Nat := (bs.map fun b => (cont b).length).sum

theorem stored_length (H : HashMapping) (tb : Nat) (cont : Cont) : (stored H tb cont).length = lenSum cont (List.range (2 ^ tb)) := by
  simp [stored, bEnts, lenSum, List.length_flatMap]

theorem dbgSerBuckets_ok (hK : LawfulCore c.p.kops knorm KRep false kok) (hKs : LawfulSer c.p.kops KRep) (hVs : LawfulSer c.p.vops VRep)
    (hO : SepDbgOK c KRep kw lo hi) {d : Dim} (hd : GoodDim W d) {s : SepDbg KB VB} {cont : Cont}
    (h : SepDbgRep c KRep VRep tight kw lo hi s d cont) :
    ∀ bs : List Nat, (∀ b ∈ bs, b < 2 ^ d.tb) → bs.Nodup → ∃ bytes, c.serBuckets s d bs = .ok bytes ∧
      ∀ (s0 : SepDbg KB VB) (n : Nat) (rest : List Nat), s0.base.n = 2 ^ d.tb → (∀ b ∈ bs, (s0.base.bkt b).size = (cont b).length ∧
        c.knull (s0.base.bkt b).keys = true ∧ c.vnull (s0.base.bkt b).vals = true) →
        ∃ s1, c.deserBuckets d s0 n bs (bytes ++ rest) = .ok (s1, n + lenSum cont bs, rest) ∧ s1.base.n = s0.base.n ∧
          (∀ b ∈ bs, (s1.base.bkt b).size = (s0.base.bkt b).size ∧ (s1.base.bkt b).cap = (s0.base.bkt b).cap ∧
            (cont b ≠ [] → KRep (s1.base.bkt b).keys d.qw (cont b).length ((cont b).map Prod.fst) ∧
              VRep (s1.base.bkt b).vals d.vw (cont b).length ((cont b).map Prod.snd) ∧
              PlainKeys (c.hash kw) c.kbits kw d.tb b (s1.plain b) (cont b)) ∧ (cont b = [] → s1.base.bkt b = s0.base.bkt b)) ∧
          ∀ b, b ∉ bs → s1.base.bkt b = s0.base.bkt b ∧ s1.plain b = s0.plain b := by
  have hkw : d.kw = kw := h.dim.2.1
  have hqw : d.qw ≤ 64 := Nat.le_trans hd.qw_le hd.kw_le
  intro bs
  induction bs with
  | nil =>
    intro _ _
    exact ⟨[], rfl, fun s0 n rest _ _ => ⟨s0, rfl, rfl, by simp, fun _ _ => ⟨rfl, rfl⟩⟩⟩
  | cons b bs ih =>
    intro hlt hnd
    obtain ⟨hnb, hnd'⟩ := List.nodup_cons.mp hnd
    obtain ⟨bytes, e1, e2⟩ := ih (fun x hx => hlt x (by simp [hx])) hnd'
    have hb := hlt b (by simp)
    have hB := h.base.bkt b hb
    have hsum : lenSum cont (b :: bs) = (cont b).length + lenSum cont bs := by simp [lenSum]
    by_cases hc : cont b = []
    · have hz : (s.base.bkt b).size = 0 := by rw [hB.size, hc]; rfl
      refine ⟨bytes, by simp only [SepDbgCfg.serBuckets, h.base.get hb, ok_bind, hz, if_true, e1], ?_⟩
      intro s0 n rest hn hs
      obtain ⟨s1, f1, f2, f3, f4⟩ := e2 s0 n rest hn (fun x hx => hs x (by simp [hx]))
      have hz0 : (s0.base.bkt b).size = 0 := by rw [(hs b (by simp)).1, hc]; rfl
      have hg : s0.base.get b = .ok (s0.base.bkt b) := by unfold SepStore.get; rw [hn, if_pos hb]
      refine ⟨s1, ?_, f2, ?_, ?_⟩
      · rw [hsum, hc]
        simp only [SepDbgCfg.deserBuckets, hg, ok_bind, hz0, if_true, f1, List.length_nil, Nat.zero_add]
      · intro x hx
        rcases List.mem_cons.mp hx with rfl | hx
        · rw [(f4 x hnb).1]
          exact ⟨rfl, rfl, fun h => absurd hc h, fun _ => rfl⟩
        · exact f3 x hx
      · intro x hx
        exact f4 x (fun h => hx (by simp [h]))
    · have hl : 0 < (cont b).length := List.length_pos_iff.mpr hc
      obtain ⟨cap, r1, r2, _, hcap⟩ := hB.rep hc
      obtain ⟨kb, k1, k2⟩ := hKs.ser _ _ _ _ hd.qw_pos hqw r1 (by simpa using hl) hcap
      obtain ⟨vb, v1, v2⟩ := hVs.ser _ _ _ _ hd.vw_pos hd.vw_le r2 (by simpa using hl) hcap
      obtain ⟨pks, pcap, hpl, hpm⟩ := h.plain b hb hc
      have hpl' : pks.length = (cont b).length := by simpa using (congrArg List.length hpm).symm
      obtain ⟨pb, p1, p2⟩ := (lawful_plain hO.bytes).ser (w := kw) (by rw [← hkw]; exact Nat.le_trans hd.qw_pos hd.qw_le)
        (by rw [← hkw]; exact hd.kw_le) hpl (by omega)
      rw [List.length_map] at k1 v1
      rw [hpl'] at p1
      refine ⟨kb ++ vb ++ pb ++ bytes, ?_, ?_⟩
      · simp only [SepDbgCfg.serBuckets, h.base.get hb, ok_bind, hB.size, if_neg (show ¬ (cont b).length = 0 by omega), k1, v1, e1,
          hkw, p1, pure_eq_ok]
      · intro s0 n rest hn hs
        obtain ⟨kb', k3, k4⟩ := k2 (vb ++ (pb ++ (bytes ++ rest)))
        obtain ⟨vb', v3, v4⟩ := v2 (pb ++ (bytes ++ rest))
        obtain ⟨pb', p3, p4⟩ := p2 (bytes ++ rest)
        obtain ⟨hs0, hn1, hn2⟩ := hs b (by simp)
        have hg : s0.base.get b = .ok (s0.base.bkt b) := by unfold SepStore.get; rw [hn, if_pos hb]
        have hpk : PlainKeys (c.hash kw) c.kbits kw d.tb b pb' (cont b) := fun _ => ⟨pks, _, p4, hpm⟩
        rw [List.length_map] at k3 v3 k4 v4
        rw [hpl'] at p3
        have hlt' : ∀ e ∈ cont b, e.1 < 2 ^ c.kbits := fun e he => Nat.lt_of_lt_of_le (h.quot b hb e he)
          (Nat.pow_le_pow_right (by omega) (Nat.le_trans hd.qw_le (by rw [hkw]; exact hO.kw_le)))
        have hchk := checkPlain_ok hK hd.qw_pos hqw k4 (by rw [hkw]; exact hpk) hlt' (cont b).length 0 (by omega)
        obtain ⟨s1, f1, f2, f3, f4⟩ := e2 ⟨s0.base.set b { s0.base.bkt b with keys := kb', vals := vb' }, upd s0.plain b pb'⟩
          (n + (cont b).length) rest hn (by
          intro x hx
          have : x ≠ b := fun e => hnb (e ▸ hx)
          show (upd s0.base.bkt b _ x).size = _ ∧ c.knull (upd s0.base.bkt b _ x).keys = _ ∧ c.vnull (upd s0.base.bkt b _ x).vals = _
          rw [upd_other _ _ this]
          exact hs x (by simp [hx]))
        refine ⟨s1, ?_, f2, ?_, ?_⟩
        · have a1 : kb ++ vb ++ pb ++ bytes ++ rest = kb ++ (vb ++ (pb ++ (bytes ++ rest))) := by simp [List.append_assoc]
          simp only [SepDbgCfg.deserBuckets, hg, ok_bind, hs0, if_neg (show ¬ (cont b).length = 0 by omega), a1, k3, v3, hkw, p3,
            ddcheck_ok hn1, ddcheck_ok hn2, hchk]
          rw [hsum, ← Nat.add_assoc, ← f1]
          simp only [hs0]
        · intro x hx
          rcases List.mem_cons.mp hx with rfl | hx
          · rw [(f4 x hnb).1, (f4 x hnb).2]
            refine ⟨by simp [SepStore.set], by simp [SepStore.set], fun _ => ?_, fun h => absurd h hc⟩
            simp only [SepStore.set, upd_same]
            exact ⟨k4, v4, hpk⟩
          · have : x ≠ b := fun e => hnb (e ▸ hx)
            have e : (s0.base.set b { s0.base.bkt b with keys := kb', vals := vb' }).bkt x = s0.base.bkt x := upd_other _ _ this
            have := f3 x hx
            simp only [e] at this
            exact this
        · intro x hx
          have h1 : x ∉ bs := fun h => hx (by simp [h])
          have h2 : x ≠ b := fun h => hx (by simp [h])
          rw [(f4 x h1).1, (f4 x h1).2]
          exact ⟨upd_other _ _ h2, upd_other _ _ h2⟩

theorem dbgDeser_eq {t0 t1 : Tab (SepDbg KB VB) Unit} {s1 : SepDbg KB VB} {tb el : Nat} {sizes r rest : List Nat}
    (h1 : kw < 256) (h2 : vw < 256) (h3 : tb < 64) (h4 : el < 2 ^ 64) (hnew : hk.dbgNew kw = .ok ()) (hrem : c.remOK t1.kw t1.tb = true)
    (h5 : Tab.reserve (sepDbgTable c) { t0.clear (sepDbgTable c) with kw := kw, vw := vw, bpg := 1 } (2 ^ tb) = .ok t1)
    (htb : t1.tb = tb) (h6 : sizes.length = t1.bucketCount)
    (h7 : c.deserBuckets (t1.dim (sepDbgTable c)) { t1.store with base :=
      { t1.store.base with bkt := fun b => { t1.store.base.bkt b with size := (sizes[b]?).getD (t1.store.base.bkt b).size } } } 0
      (List.range t1.bucketCount) (r ++ rest) = .ok (s1, el, rest)) :
    c.deserialize hk t0 (toBytes 1 kw ++ toBytes 1 vw ++ toBytes 1 tb ++ toBytes 8 el ++ sizes ++ r ++ rest) =
      .ok ({ t1 with elems := el, store := s1 }, rest) := by
  have a : toBytes 1 kw ++ toBytes 1 vw ++ toBytes 1 tb ++ toBytes 8 el ++ sizes ++ r ++ rest =
      toBytes 1 kw ++ (toBytes 1 vw ++ (toBytes 1 tb ++ (toBytes 8 el ++ (sizes ++ (r ++ rest))))) := by
    simp only [List.append_assoc]
  have e1 : shl64 1 tb = .ok (2 ^ tb) := by
    unfold shl64
    rw [if_pos h3, Nat.shiftLeft_eq, Nat.one_mul, Nat.mod_eq_of_lt (Nat.pow_lt_pow_right (by omega) h3)]
  have e2 : Tab.bucketCount { t1 with elems := el } = t1.bucketCount := rfl
  have e3 : Tab.dim (sepDbgTable c) { t1 with elems := el } = t1.dim (sepDbgTable c) := rfl
  rw [a]
  unfold SepDbgCfg.deserialize
  simp only [takeBytes_append _ _ (toBytes_length _ _), ok_bind, ofBytes1 h1, ofBytes1 h2,
    ofBytes1 (show tb < 256 by omega), e1, h5, ofBytes8 h4, e2, takeBytes_append _ _ h6, hnew, ddcheck_ok htb, ddcheck_ok hrem]
  rw [e3, h7]
  simp only [ok_bind, ddcheck_ok, pure_eq_ok]

theorem ddcheck_bind {α : Type} {on : Bool} {p : Prop} [Decidable p] (h : p) (f : Unit → Res α) : (ddcheck on p >>= f) = f () := by
  rw [ddcheck_ok h, ok_bind]

theorem remOK_zero {c : SepDbgCfg KB VB} (hc : c.remOK = hk.remOK) (hkw : 1 ≤ kw) : c.remOK kw 0 = true := by
  rw [hc]
  cases hk <;> simp [HashKind.remOK] <;> omega

/-- In a debug build, serialising a table and reading the bytes into any table fails no assertion and gives a table in the same state, up
to the capacities; with `arbitrary_resize` the table must have buckets. -/
theorem dbgSerialize_ok (hL : SepDbgLaws c hk vbits tr false W kw vw KRep VRep) (hrm : c.remOK = hk.remOK)
    {t : Tab (SepDbg KB VB) Unit} {l : List (Nat × Nat)}
    (h : Inv (sepDbgTable c) (sepDbgPar c hk KRep VRep tr false W kw vw) t l) (hsz : t.size < 2 ^ 64) :
    ∃ bytes, c.serialize t = .ok bytes ∧ ((c.p.strat = .arbitrary → t.bucketCount ≠ 0) → ∀ (t0 : Tab (SepDbg KB VB) Unit) (rest : List Nat),
      ∃ t', c.deserialize hk t0 (bytes ++ rest) = .ok (t', rest) ∧
        Inv (sepDbgTable c) (sepDbgPar c hk KRep VRep tr false W kw vw) t' l ∧ t'.tb = t.tb) := by
  have L := hL.laws
  have hO := hL.ok
  obtain ⟨knorm, kok, hK⟩ := hL.keys
  have hkw : kw ≤ 64 := L.kw_le
  have hvw : vw ≤ 64 := L.vw_le
  have hnew : hk.dbgNew kw = .ok () := by
    have := hL.new
    unfold sepDbgNew at this
    obtain ⟨u, h1, _⟩ := bind_eq_ok this
    exact h1
  rcases h with ⟨h1, h2, h3, h4, h5, h6, rfl, hst, n, full, h7⟩ | ⟨cont, o, full, hl, hp⟩
  · -- no buckets
    have h1 : t.kw = kw := h1
    have h2 : t.vw = vw := h2
    have hbc : t.bucketCount = 0 := by simp [Tab.bucketCount, h5]
    have hkw1 : 1 ≤ kw := by
      have := hL.new
      unfold sepDbgNew at this
      obtain ⟨_, _, this⟩ := bind_eq_ok this
      obtain ⟨_, _, this⟩ := bind_eq_ok this
      obtain ⟨_, _, this⟩ := bind_eq_ok this
      obtain ⟨_, h8, _⟩ := bind_eq_ok this
      by_cases hlt : 1 ≤ kw
      · exact hlt
      · rw [ddcheck_fails hlt] at h8
        cases h8
    have hrem := remOK_zero hrm hkw1
    refine ⟨toBytes 1 t.kw ++ toBytes 1 t.vw ++ toBytes 1 t.tb ++ toBytes 8 t.elems ++ [] ++ [], ?_, ?_⟩
    · unfold SepDbgCfg.serialize
      rw [ddcheck_ok (by rw [h1, h5]; exact hrem), ok_bind]
      simp only [hbc, List.range_zero, List.mapM_nil, pure_eq_ok, ok_bind, SepDbgCfg.serBuckets]
    · intro hne t0 rest
      have hinc : c.p.strat ≠ .arbitrary := fun e => hne e hbc
      have hr : Tab.reserve (sepDbgTable c) { t0.clear (sepDbgTable c) with kw := t.kw, vw := t.vw, bpg := 1 } (2 ^ t.tb) =
          .ok { t0.clear (sepDbgTable c) with kw := t.kw, vw := t.vw, bpg := 1, store := ⟨{ n := 2 ^ 0, bkt := fun _ => { keys := c.p.kops.empty, vals := c.p.vops.empty, size := 0, cap := 0 } }, fun _ => none⟩ } := by
        unfold Tab.reserve Tab.reserveWith Tab.reserveEmpty
        have e : reserveBits (2 ^ t.tb) = .ok 0 := by rw [h5]; exact reserveBits_pow (by omega)
        rw [e]
        simp only [ok_bind, Tab.clear, if_true]
        have e2 : (sepDbgTable c).stale (sepDbgTable c).noStore = false := by simp [sepDbgTable]
        exact ddcheck_bind e2 _
      rw [h6]
      refine ⟨_, dbgDeser_eq (by omega) (by omega) (by omega) (Nat.two_pow_pos 64) (by rw [h1]; exact hnew)
        (by rw [h1]; exact hrem) hr h5.symm rfl rfl, .inl ⟨h1, h2, ?_⟩, ?_⟩
      · obtain ⟨full0, h0⟩ := L.ovf.new 0 0
        exact ⟨Nat.le_refl 1, show 1 ≤ 64 by omega, rfl, rfl, rfl, by simp [sepDbgTable, hinc], 0, full0, h0⟩
      · exact h5.symm
  · have ho : o = [] := hl.orep.1
    subst ho
    have hgood := hl.good L
    have hbc := hl.bc L
    have htb : t.tb < 64 := Nat.lt_of_le_of_lt hl.hi L.hi_lt
    have htkw : t.kw = kw := hl.tkw
    have htvw : t.vw = vw := hl.tvw
    have hrem : c.remOK t.kw t.tb = true := by rw [htkw]; exact (hO.inv t.tb hl.lo hl.hi).2
    have hR : SepDbgRep c KRep VRep false kw (hk.lo kw W) (hk.width kw - 1) t.store (t.dim (sepDbgTable c)) cont := hl.rep.1
    have hlen : ∀ b < 2 ^ t.tb, (cont b).length < 256 := by
      intro b hb
      have := (hR.base.bkt b hb).le
      unfold SepCfg.maxSize at this
      omega
    obtain ⟨r, e1, e2⟩ := dbgSerBuckets_ok hK hL.kser hL.vser hO hgood hR (List.range t.bucketCount)
      (by intro b hb; rw [hbc] at hb; exact List.mem_range.mp hb) List.nodup_range
    have hsizes : (List.range t.bucketCount).mapM (fun b => (do
        let x ← t.store.base.get b
        return x.size % 256 : Res Nat)) = .ok ((List.range t.bucketCount).map (fun b => (cont b).length)) := by
      apply mapM_ok
      intro b hb
      rw [hbc] at hb
      have hb := List.mem_range.mp hb
      rw [hR.base.get hb, ok_bind, pure_eq_ok, (hR.base.bkt b hb).size, Nat.mod_eq_of_lt (hlen b hb)]
    refine ⟨_, by unfold SepDbgCfg.serialize; rw [ddcheck_ok hrem, ok_bind, hsizes, ok_bind, e1, ok_bind, pure_eq_ok], ?_⟩
    intro _ t0 rest
    obtain ⟨full0, h0⟩ := L.ovf.new 0 0
    obtain ⟨t1, full1, g1, g2, g3, g4⟩ := reserveEmpty_ok L
      (t := { t0.clear (sepDbgTable c) with kw := t.kw, vw := t.vw, bpg := 1 }) (n := 2 ^ t.tb) (r := t.tb)
      hl.tkw hl.tvw (Nat.le_refl 1) (show 1 ≤ 64 by omega) rfl h0 (by simp [sepDbgTable, Tab.clear]) (reserveBits_pow htb) hl.lo hl.hi
    have hr : Tab.reserve (sepDbgTable c) { t0.clear (sepDbgTable c) with kw := t.kw, vw := t.vw, bpg := 1 } (2 ^ t.tb) =
        .ok t1 := by
      unfold Tab.reserve Tab.reserveWith
      rw [reserveBits_pow htb]
      exact g1
    have hd1 : t1.dim (sepDbgTable c) = { t.dim (sepDbgTable c) with bpg := t1.bpg } := by
      unfold Tab.dim Tab.hash
      rw [g3, g2.tkw, g2.tvw, hl.tkw, hl.tvw]
    have hR1 : SepDbgRep c KRep VRep false kw (hk.lo kw W) (hk.width kw - 1) t1.store (t1.dim (sepDbgTable c)) (fun _ => []) := g2.rep.1
    have hbc1 : t1.bucketCount = t.bucketCount := by unfold Tab.bucketCount; rw [g3]
    have hn1 : t1.store.base.n = 2 ^ t.tb := by rw [hR1.base.n]; show 2 ^ t1.tb = _; rw [g3]
    have hsz' : ∀ b < 2 ^ t.tb, (((List.range t.bucketCount).map (fun b => (cont b).length))[b]?).getD (t1.store.base.bkt b).size =
        (cont b).length := by
      intro b hb
      rw [hbc]
      simp [hb]
    obtain ⟨s1, f1, f2, f3, f4⟩ := e2 { t1.store with base := { t1.store.base with bkt := fun b => { t1.store.base.bkt b with
      size := (((List.range t.bucketCount).map (fun b => (cont b).length))[b]?).getD (t1.store.base.bkt b).size } } } 0 rest hn1 (by
        intro b hb
        rw [hbc] at hb
        have hb := List.mem_range.mp hb
        have hB1 := hR1.base.bkt b (show b < 2 ^ t1.tb by rw [g3]; exact hb)
        refine ⟨hsz' b hb, ?_, ?_⟩
        · show c.knull (t1.store.base.bkt b).keys = true
          rcases (hB1.nil rfl).1 with e | ⟨k, e⟩ <;> rw [e]
          · exact hO.knull0
          · exact hO.knull1 k
        · show c.vnull (t1.store.base.bkt b).vals = true
          rcases (hB1.nil rfl).2 with e | ⟨k, e⟩ <;> rw [e]
          · exact hO.vnull0
          · exact hO.vnull1 k)
    have helems : t.elems = 0 + lenSum cont (List.range t.bucketCount) := by
      rw [hl.elems, hbc]
      simp [ents, stored_length]
    rw [← helems] at f1
    have hdeq : ∀ s n bs is, c.deserBuckets (t1.dim (sepDbgTable c)) s n bs is = c.deserBuckets (t.dim (sepDbgTable c)) s n bs is := by
      rw [hd1]
      have hck : ∀ b ks pl m i, c.checkPlain { t.dim (sepDbgTable c) with bpg := t1.bpg } b ks pl i m =
          c.checkPlain (t.dim (sepDbgTable c)) b ks pl i m := by
        intro b ks pl m
        induction m with
        | zero => intro i; rfl
        | succ m ih => intro i; simp only [SepDbgCfg.checkPlain, ih]
      intro s n bs
      induction bs generalizing s n with
      | nil => intro is; rfl
      | cons b bs ih => intro is; simp only [SepDbgCfg.deserBuckets, ih, hck]
    refine ⟨_, dbgDeser_eq (by omega) (by omega) htb hsz (by rw [htkw]; exact hnew)
      (by rw [g2.tkw, g3]; rw [htkw] at hrem; exact hrem) hr g3 (by simp [hbc1])
      (by rw [hdeq, hbc1]; exact f1), .inr ⟨cont, [], full1, ?_, ?_⟩, g3⟩
    · refine { tkw := g2.tkw, tvw := g2.tvw, bpg_pos := g2.bpg_pos, bpg_le := g2.bpg_le, lo := g2.lo, hi := g2.hi,
               rep := ?_, orep := g2.orep, cok := by rw [g3]; exact hl.cok, ofull := by simp, vals := ?_, ovals := by simp,
               elems := ?_ }
      · refine ⟨⟨⟨?_, ?_⟩, g2.rep.1.dim, ?_, ?_⟩, g2.rep.2⟩
        · show s1.base.n = 2 ^ t1.tb
          rw [f2, g3]; exact hn1
        · intro b hb
          have hb : b < 2 ^ t.tb := by rw [← g3]; exact hb
          obtain ⟨k1, k2, k3, k4⟩ := f3 b (by rw [hbc]; exact List.mem_range.mpr hb)
          have hB1 := hR1.base.bkt b (show b < 2 ^ t1.tb by rw [g3]; exact hb)
          have hcap : (s1.base.bkt b).cap = 0 := by rw [k2]; exact hB1.cap0 rfl
          refine ⟨by rw [k1]; exact hsz' b hb, (hR.base.bkt b hb).le, ?_, fun _ => hcap, ?_, by simp⟩
          rotate_left
          · intro h
            have := hB1.nil rfl
            rw [k4 h]
            exact this
          intro hne
          refine ⟨(cont b).length, ?_, ?_, fun _ => by rw [hcap]; omega, by have := hlen b hb; omega⟩
          · have := (k3 hne).1
            show KRep (s1.base.bkt b).keys (t1.dim (sepDbgTable c)).qw _ _
            rw [hd1]; exact this
          · have := (k3 hne).2.1
            show VRep (s1.base.bkt b).vals (t1.dim (sepDbgTable c)).vw _ _
            rw [hd1]; exact this
        · intro b hb e he
          show e.1 < 2 ^ (t1.dim (sepDbgTable c)).qw
          rw [hd1]
          exact hR.quot b (by show b < 2 ^ t.tb; rw [← g3]; exact hb) e he
        · intro b hb
          have hb : b < 2 ^ t.tb := by rw [← g3]; exact hb
          show PlainKeys (c.hash kw) c.kbits kw t1.tb b (s1.plain b) (cont b)
          rw [g3]
          intro hne
          exact ((f3 b (by rw [hbc]; exact List.mem_range.mpr hb)).2.2.1 hne).2.2 hne
      · intro b hb
        exact hl.vals b (by rw [← g3]; exact hb)
      · show t.elems = _
        rw [hl.elems]
        show _ = (ents _ t1.tb cont []).length
        rw [g3]
    · show l.Perm (ents _ t1.tb cont [])
      rw [g3]; exact hp

end SC
