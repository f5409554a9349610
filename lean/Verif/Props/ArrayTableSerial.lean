import Verif.Sep.SerialOv
import Verif.Props.ArrayTable
import Verif.Props.ArraySerial
import Verif.Table.Bidi
/-!
# Files of `separate_chaining_map` with `array_overflow` (C109)
-/
namespace SC

variable {KB VB : Type} {p : SepCfg KB VB} {hk : HashKind} {tr : Nat → Nat → Nat} {W kw vw : Nat} {c : ArrEnv} {junk : Nat → Nat}
  {KRep : KB → Nat → Nat → List Nat → Prop} {VRep : VB → Nat → Nat → List Nat → Prop}

/-- the pairs in the overflow table fit into its types -/
theorem IdealRep.arrRep {o : ArrOv} {n : Nat} {l : List (Nat × Nat × Nat)} {full : Nat → Bool} (h : IdealRep o n l full)
    (hlt : ∀ e ∈ l, e.2.1 < 2 ^ c.ks ∧ e.2.2 < 2 ^ c.vs) : ArrRep c o (l.map Prod.snd) := by
  obtain ⟨r1, h1, h2⟩ := h.keys
  obtain ⟨r2, h3, h4⟩ := h.vals
  refine ⟨by rw [h.elems, List.length_map], ⟨r1, by rw [h1, List.map_map]; rfl, by rw [List.length_map]; exact h2⟩,
    ⟨r2, by rw [h3, List.map_map]; rfl, by rw [List.length_map]; exact h4⟩, ?_⟩
  intro e he
  obtain ⟨e', he', rfl⟩ := List.mem_map.mp he
  exact hlt e' he'

/-- the part of the file behind the overflow table -/
theorem bare_file (hg : hk.grow kw p.maxSize 1 < 65) (L' : Laws (sepMap p hk) (sepPar p hk KRep VRep DummyRep tr (tr vw) false W kw vw))
    {knorm : Nat → Nat → Nat} (hK : LawfulBucket p.kops knorm KRep) (hV : LawfulBucket p.vops tr VRep)
    {t : Tab (SepStore KB VB) ArrOv} {l : List (Nat × Nat)}
    (L : Laws (sepTable p hk (arrIdeal c junk)) (sepPar p hk KRep VRep IdealRep tr (fun v => v % 2 ^ c.vs) false W kw vw))
    (hi : Inv (sepTable p hk (arrIdeal c junk)) (sepPar p hk KRep VRep IdealRep tr (fun v => v % 2 ^ c.vs) false W kw vw) t l)
    (hsz : t.size < 2 ^ 64) :
    ∃ bytes, p.serialize hk t.bare = .ok bytes ∧ ∀ (t0 : Tab (SepStore KB VB) Unit) (rest : List Nat),
      ∃ u, p.deserialize hk t0 (bytes ++ rest) = .ok (u, rest) ∧ u.kw = t.kw ∧ u.vw = t.vw ∧ u.tb = t.tb ∧ u.elems = t.elems ∧
        Inv (sepTable p hk (arrIdeal c junk)) (sepPar p hk KRep VRep IdealRep tr (fun v => v % 2 ^ c.vs) false W kw vw) (u.dress t.ovf) l := by
  rcases hi with ⟨h1, h2, h3, h4, h5, h6, rfl, hst, n, full, h7⟩ | ⟨cn, o, full, hl, hp⟩
  · have hP : SepParOK p hk tr W kw vw false (sepPar p hk KRep VRep DummyRep tr (tr vw) false W kw vw) :=
      ⟨L', hg, ⟨KRep, VRep, rfl⟩, knorm, KRep, VRep, rfl, hK, hV⟩
    have hb : Inv (sepMap p hk) (sepPar p hk KRep VRep DummyRep tr (tr vw) false W kw vw) t.bare [] :=
      .inl ⟨h1, h2, h3, h4, h5, h6, rfl, hst, 0, _, rfl, rfl⟩
    obtain ⟨bytes, e1, e2⟩ := serialize_ok hP hb hsz
    refine ⟨bytes, e1, fun t0 rest => ?_⟩
    obtain ⟨u, f1, f2, f3⟩ := e2 t0 rest
    have f3 : u.tb = t.tb := f3
    rcases f2 with ⟨g1, g2, g3, g4, g5, g6, _, g8, _⟩ | ⟨cn, o, full, hl, _⟩
    · exact ⟨u, f1, by rw [g1, h1]; rfl, by rw [g2, h2]; rfl, f3, by rw [g6, h6], .inl ⟨g1, g2, g3, g4, g5, g6, rfl, g8, n, full, h7⟩⟩
    · have := hl.tb_pos L'
      omega
  · have hgood : GoodDim W (t.dim (sepTable p hk (arrIdeal c junk))) := hl.good L
    obtain ⟨bytes, e1, e2⟩ := serialize_rep (t := t.bare) L' rfl hK hV hl.tkw hl.tvw hl.lo hl.hi hgood hl.rep hsz
    refine ⟨bytes, e1, fun t0 rest => ?_⟩
    obtain ⟨u, full', f1, f2, f3, f4, f5, f6, f7, f8⟩ := e2 t0 rest
    have f5 : u.tb = t.tb := f5
    have e5 : (u.dress t.ovf).tb = t.tb := f5
    have f6 : u.elems = t.elems := f6
    refine ⟨u, f1, f2, f3, f5, f6, .inr ⟨cn, o, full, ?_, ?_⟩⟩
    · exact { tkw := by rw [← hl.tkw]; exact f2, tvw := by rw [← hl.tvw]; exact f3, bpg_pos := by show 1 ≤ u.bpg; omega,
              bpg_le := by show u.bpg ≤ 64; omega, lo := by rw [e5]; exact hl.lo,
              hi := by rw [e5]; exact hl.hi, rep := f8, orep := by rw [e5]; exact hl.orep, cok := by rw [e5]; exact hl.cok,
              ofull := by rw [e5]; exact hl.ofull, vals := by rw [e5]; exact hl.vals, ovals := hl.ovals,
              elems := by rw [e5]; exact f6.trans hl.elems }
    · rw [e5]; exact hp

/-- The overflow table that has been read, seen by the search of a key that is stored in it, or of any key if it is empty or full. -/
theorem read_alike {t : ArrOv} {n : Nat} {o : List (Nat × Nat × Nat)} {full : Nat → Bool} (h : IdealRep t n o full) (ha : ArrRep c t (o.map Prod.snd))
    {o' : ArrOv} (h1 : o'.elems = o.length) (h2 : o'.keys = some (o.map (fun e => some e.2.1))) (h3 : o'.vals = some (o.map (fun e => some e.2.2)))
    {k : Nat} (hk : k < 2 ^ c.ks) (hc : o = [] ∨ k ∈ o.map (fun e => e.2.1) ∨ o.length = arrLength) :
    OvAlike (arrJunk c junk) (arrIdeal c junk) k o' t := by
  have he : o'.elems = t.elems := by rw [h1, h.elems]
  obtain ⟨r1, k1, k2⟩ := h.keys
  obtain ⟨r2, k3, k4⟩ := h.vals
  refine ⟨he, funext fun p => by show decide (p < o'.elems) = decide (p < t.elems); rw [he], ?_, ?_, ?_⟩
  · intro h0
    have h0 : 0 < t.elems := h0
    have hi : (arrIdeal c junk).find t k = .ok (if k ∈ o.map (fun e => e.2.1) then (o.map (fun e => e.2.1)).idxOf k else NPOS) := by
      show scanFrom t.keys k 0 t.elems = _
      rw [k1, show o.map (fun e => some e.2.1) = (o.map (fun e => e.2.1)).map some by simp]
      exact scan_front _ _ _ _ (by rw [List.length_map]; exact h.elems)
    rw [hi]
    show scanFrom o'.keys (k % 2 ^ c.ks) 0 arrLength = _
    rw [Nat.mod_eq_of_lt hk]
    rcases hc with rfl | hc | hc
    · have := h.elems; simp at this; omega
    · rw [if_pos hc]
      have := arr_find_in (a := c) (o := o') (l := o.map Prod.snd) (k := k) (by rw [List.map_map]; exact hc) (by rw [List.length_map]; omega) hk
        (by rw [h2, List.map_map]; rfl)
      rw [List.map_map] at this
      rw [← Nat.mod_eq_of_lt hk]
      refine Eq.trans this ?_
      rw [Nat.mod_eq_of_lt hk]
      rfl
    · rw [h2, show o.map (fun e => some e.2.1) = (o.map (fun e => e.2.1)).map some ++ [] by simp]
      exact scan_front _ _ _ _ (by rw [List.length_map, hc])
  · intro p hp
    have hp : p < o.length := by rw [← h.elems]; exact of_decide_eq_true hp
    have h4 := ha.key (p := p) (by rw [List.length_map]; exact hp)
    show cellRead o'.keys p = cellRead t.keys p
    rw [show cellRead t.keys p = _ from h4, h2]
    simp [cellRead, hp]
  · intro p hp
    have hp : p < o.length := by rw [← h.elems]; exact of_decide_eq_true hp
    have h4 := ha.read (p := p) (by rw [List.length_map]; exact hp)
    show cellRead o'.vals p = cellRead t.vals p
    rw [show cellRead t.vals p = _ from h4, h3]
    simp [cellRead, hp]

/-- what both parts of C109 are read off from -/
theorem array_file (h : SepOK p hk tr W kw vw) (hf : ArrFits c (tr vw)) (hkw : kw ≤ c.ks) (hk8 : 8 ∣ c.ks) (hv8 : 8 ∣ c.vs) {ops : List MapOp}
    (hops : ∀ op ∈ ops, ArrCall c junk (tr vw) hk W kw op) {t : Tab (SepStore KB VB) ArrOv} {as : List Ans}
    (hrun : Tab.run (sepMapJunk p hk c junk) (Tab.new (sepMapJunk p hk c junk) kw vw) ops = .ok (t, as)) (hsz : t.size < 2 ^ 64) :
    ∃ l bytes, t.ovf.content c = .ok l ∧ p.serializeArr hk c t = .ok bytes ∧ ∀ (t0 : Tab (SepStore KB VB) ArrOv) (rest : List Nat), ∃ t',
      p.deserializeArr hk c t0 (bytes ++ rest) = .ok (t', rest) ∧ t'.kw = t.kw ∧ t'.vw = t.vw ∧ t'.size = t.size ∧
      t'.tb = t.tb ∧ (l ≠ [] → t.tb ≠ 0) ∧ t'.ovf.elems = l.length ∧ t'.ovf.keys = some (l.map (fun e => some e.1)) ∧ t'.ovf.content c = .ok l ∧
      ∀ k < 2 ^ kw, l = [] ∨ k ∈ l.map Prod.fst ∨ l.length = arrLength → t'.lookup (sepMapJunk p hk c junk) k =
        .ok (((FMap.empty.after (tr vw) ops).get k).map (fun v => (k, v))) := by
  obtain ⟨knorm, KRep, h1, h2, h3⟩ := h.keys.lawful
  obtain ⟨⟨VRep, h4⟩, h5⟩ := h.vals.lawful
  have hM : 2 ≤ p.maxSize := by have := h.max; unfold SepCfg.maxSize; omega
  obtain ⟨L, hg⟩ := sep_laws (ov := arrIdeal c junk) h1 h2 h4 h3 (h5 vw) (lawful_ideal c junk)
    (fun x => Nat.mod_eq_of_lt (hf.wide x)) hM h.hash h.vw_pos h.vw_le false
  obtain ⟨L', _⟩ := sep_laws (ov := dummyOverflow) h1 h2 h4 h3 (h5 vw) (lawful_dummy (tr vw)) (h5 vw) hM h.hash h.vw_pos h.vw_le false
  have A := junk_agree c junk (NotJunk c junk) (fun k hk => hk.1) (fun i hi hk => hk.2 i hi rfl)
  obtain ⟨t₁, l, r1, hi, ha, _⟩ := run_withOv (g := sepTable p hk (arrIdeal c junk)) A L hg ops (fun op hop => ⟨ValidOp.opOK L.hi_lt L.lo_pos
    (fun v hv => hv) (show 0 % 2 ^ c.vs = tr vw 0 by rw [hf.zero]; exact Nat.zero_mod _) (hops op hop).1, (hops op hop).2⟩)
  have hrun : Tab.run ((sepTable p hk (arrIdeal c junk)).withOv (arrJunk c junk)) (Tab.new ((sepTable p hk (arrIdeal c junk)).withOv (arrJunk c junk)) kw vw) ops =
    .ok (t, as) := hrun
  have : t₁ = t := congrArg Prod.fst (Except.ok.inj (r1.symm.trans hrun))
  subst t₁
  obtain ⟨o, n, full, hR, ho, ht0⟩ : ∃ o n full, IdealRep t.ovf n o full ∧ (∀ e ∈ o, e.2.1 < 2 ^ c.ks ∧ e.2.2 < 2 ^ c.vs) ∧ (o ≠ [] → t.tb ≠ 0) := by
    rcases hi with ⟨_, _, _, _, _, _, _, _, n, full, h7⟩ | ⟨cn, o, full, hl, _⟩
    · exact ⟨[], n, full, h7, by simp, by simp⟩
    · refine ⟨o, _, full, hl.orep, fun e he => ⟨?_, ?_⟩, fun _ => by have := hl.tb_pos L; omega⟩
      · exact Nat.lt_of_lt_of_le (hl.cok.osrc e he).1 (Nat.pow_le_pow_right (by omega) hkw)
      · have := hl.ovals e he
        have this : tr vw e.2.2 = e.2.2 := this
        rw [← this]; exact hf.wide _
  have hA := hR.arrRep ho
  obtain ⟨ob, s1, s2⟩ := hA.serialize hk8 hv8
  obtain ⟨bytes, e1, e2⟩ := bare_file hg L' h1 h4 L hi hsz
  refine ⟨o.map Prod.snd, ob ++ bytes, hA.content, by simp only [SepCfg.serializeArr, s1, e1, ok_bind, pure_eq_ok], fun t0 rest => ?_⟩
  obtain ⟨u, f1, f2, f3, f4, f5, f6⟩ := e2 t0.bare rest
  obtain ⟨o', w1, w2, w3, w4⟩ : ∃ o' : ArrOv, p.deserializeArr hk c t0 (ob ++ bytes ++ rest) = .ok (u.dress o', rest) ∧
      o'.elems = (o.map Prod.snd).length ∧ o'.keys = some ((o.map Prod.snd).map (fun e => some e.1)) ∧
      o'.vals = some ((o.map Prod.snd).map (fun e => some e.2)) := by
    refine ⟨_, by simp only [SepCfg.deserializeArr, List.append_assoc, s2, f1, ok_bind, pure_eq_ok, arrOverflow]; rfl, rfl, rfl, rfl⟩
  have htb : u.tb < 64 := by
    have := Sem.tb_lt L ⟨l, hi, ha⟩
    omega
  refine ⟨_, w1, f2, f3, f5, f4, fun hne => ht0 (by intro e; subst e; exact hne rfl), w2, w3, arr_content w2 w3 w4, ?_⟩
  intro k hk' hc
  have hlk := Sem.lookup L ⟨l, f6, ha⟩ hk'
  have hal : OvAlike (arrJunk c junk) (arrIdeal c junk) k o' t.ovf :=
    read_alike hR hA (by rw [w2, List.length_map]) (by rw [w3, List.map_map]; rfl) (by rw [w4, List.map_map]; rfl)
      (Nat.lt_of_lt_of_le hk' (Nat.pow_le_pow_right (by omega) hkw)) (by
        rcases hc with hc | hc | hc
        · exact .inl (List.map_eq_nil_iff.mp hc)
        · rw [List.map_map] at hc; exact .inr (.inl hc)
        · rw [List.length_map] at hc; exact .inr (.inr hc))
  exact (OvAlike.lookup (g := sepTable p hk (arrIdeal c junk)) hal (u.dress t.ovf) htb).trans hlk

/-- **C109**, true part: a `separate_chaining_map` with `array_overflow`, after any calls for which such a table works at all (C106), is
written to a stream and read into any other table, whatever follows in the stream: exactly the bytes written are consumed, and the table
read has the same widths, the same `size()`, the same `bucket_count()` and the same pairs in its overflow table; every key that is in the
overflow table is found with its value; and if the overflow table is empty or full, every key is answered as by a finite map.  Missing: the
keys that are in the buckets, and the absent ones, if between 1 and 255 elements are in the overflow table, see `C109_read_back_find_false`. -/
theorem C109_separate_array_file_partial (h : SepOK p hk tr W kw vw) (hf : ArrFits c (tr vw)) (hkw : kw ≤ c.ks) (hk8 : 8 ∣ c.ks) (hv8 : 8 ∣ c.vs)
    {ops : List MapOp} (hops : ∀ op ∈ ops, ArrCall c junk (tr vw) hk W kw op) {t : Tab (SepStore KB VB) ArrOv} {as : List Ans}
    (hrun : Tab.run (sepMapJunk p hk c junk) (Tab.new (sepMapJunk p hk c junk) kw vw) ops = .ok (t, as)) (hsz : t.size < 2 ^ 64) :
    ∃ l bytes, t.ovf.content c = .ok l ∧ p.serializeArr hk c t = .ok bytes ∧ ∀ (t0 : Tab (SepStore KB VB) ArrOv) (rest : List Nat), ∃ t',
      p.deserializeArr hk c t0 (bytes ++ rest) = .ok (t', rest) ∧ t'.kw = t.kw ∧ t'.vw = t.vw ∧ t'.size = t.size ∧
      t'.bucketCount = t.bucketCount ∧ t'.ovf.content c = .ok l ∧
      ∀ k < 2 ^ kw, l = [] ∨ k ∈ l.map Prod.fst ∨ l.length = arrLength → t'.lookup (sepMapJunk p hk c junk) k =
        .ok (((FMap.empty.after (tr vw) ops).get k).map (fun v => (k, v))) := by
  obtain ⟨l, bytes, h1, h2, h3⟩ := array_file h hf hkw hk8 hv8 hops hrun hsz
  refine ⟨l, bytes, h1, h2, fun t0 rest => ?_⟩
  obtain ⟨t', g1, g2, g3, g4, g5, _, _, _, g6, g7⟩ := h3 t0 rest
  exact ⟨t', g1, g2, g3, g4, by unfold Tab.bucketCount; rw [g5], g6, g7⟩

/-- **C109** is false: after any such calls that leave at least one and at most 255 elements in the overflow table, `find` reads behind the
end of an array in the table that has been read, for every key that is not in the overflow table. -/
theorem C109_read_back_find_false (h : SepOK p hk tr W kw vw) (hf : ArrFits c (tr vw)) (hkw : kw ≤ c.ks) (hk8 : 8 ∣ c.ks) (hv8 : 8 ∣ c.vs)
    {ops : List MapOp} (hops : ∀ op ∈ ops, ArrCall c junk (tr vw) hk W kw op) {t : Tab (SepStore KB VB) ArrOv} {as : List Ans}
    (hrun : Tab.run (sepMapJunk p hk c junk) (Tab.new (sepMapJunk p hk c junk) kw vw) ops = .ok (t, as)) (hsz : t.size < 2 ^ 64)
    {l : List (Nat × Nat)} (hl : t.ovf.content c = .ok l) (h0 : 0 < l.length) (h1 : l.length < arrLength) :
    ∃ bytes, p.serializeArr hk c t = .ok bytes ∧ ∀ (t0 : Tab (SepStore KB VB) ArrOv) (rest : List Nat), ∃ t',
      p.deserializeArr hk c t0 (bytes ++ rest) = .ok (t', rest) ∧
      ∀ k < 2 ^ kw, k ∉ l.map Prod.fst → t'.find (sepMapJunk p hk c junk) k = .error .oob := by
  obtain ⟨l', bytes, e1, e2, e3⟩ := array_file h hf hkw hk8 hv8 hops hrun hsz
  rw [hl] at e1
  cases e1
  refine ⟨bytes, e2, fun t0 rest => ?_⟩
  obtain ⟨t', g1, _, _, _, g5, g6, g7, g8, _⟩ := e3 t0 rest
  refine ⟨t', g1, fun k hk' hm => ?_⟩
  have h1' : l.length < 256 := h1
  have htb : t'.tb ≠ 0 := by rw [g5]; exact g6 (by intro e; subst e; simp at h0)
  have hf' : (arrJunk c junk).find t'.ovf k = .error .oob := by
    have := arr_scan l k (255 - l.length) (by omega)
    rw [show l.length + (255 - l.length + 1) = 256 by omega, if_neg hm] at this
    show scanFrom t'.ovf.keys (k % 2 ^ c.ks) 0 arrLength = _
    rw [g8, Nat.mod_eq_of_lt (Nat.lt_of_lt_of_le hk' (Nat.pow_le_pow_right (by omega) hkw))]
    exact this
  have hs : 0 < (arrJunk c junk).size t'.ovf := by show 0 < t'.ovf.elems; omega
  unfold Tab.find
  rw [if_neg htb]
  simp only [sepTable, if_pos hs, hf', error_bind]

/-- The example of C106: 60 keys are stored, the file is read into a new table, and a search for the stored key 3 reads behind the end. -/
theorem C109_file_ex : ∃ t as l bytes t', Tab.run (sepMapJunk exCfg (.xorshift 16) zeroEx (fun _ => 0))
      (Tab.new (sepMapJunk exCfg (.xorshift 16) zeroEx (fun _ => 0)) 10 20) (zeroExOps.take 60) = .ok (t, as) ∧ t.size = 60 ∧
    t.ovf.content zeroEx = .ok l ∧ 0 < l.length ∧ exCfg.serializeArr (.xorshift 16) zeroEx t = .ok bytes ∧
    t.lookup (sepMapJunk exCfg (.xorshift 16) zeroEx (fun _ => 0)) 3 = .ok (some (3, 1000)) ∧
    exCfg.deserializeArr (.xorshift 16) zeroEx (Tab.new (sepMapJunk exCfg (.xorshift 16) zeroEx (fun _ => 0)) 10 20) bytes = .ok (t', []) ∧
    (∀ e ∈ l, t'.lookup (sepMapJunk exCfg (.xorshift 16) zeroEx (fun _ => 0)) e.1 = .ok (some e)) ∧
    t'.find (sepMapJunk exCfg (.xorshift 16) zeroEx (fun _ => 0)) 3 = .error .oob := by
  have hops : ∀ op ∈ zeroExOps.take 60, ArrCall zeroEx (fun _ => 0) (fun v => v % 2 ^ 32) (.xorshift 16) 16 10 op :=
    fun op h => zeroExOps_ok op (List.mem_of_mem_take h)
  have hx : (match Tab.run (sepMapJunk exCfg (.xorshift 16) zeroEx (fun _ => 0)) (Tab.new (sepMapJunk exCfg (.xorshift 16) zeroEx (fun _ => 0)) 10 20)
      (zeroExOps.take 60) with
    | .ok (t, _) => t.size == 60 && (match t.lookup (sepMapJunk exCfg (.xorshift 16) zeroEx (fun _ => 0)) 3 with
        | .ok r => r == some (3, 1000)
        | .error _ => false) && (match t.ovf.content zeroEx with
        | .ok l => decide (0 < l.length ∧ l.length < 256 ∧ 3 ∉ l.map Prod.fst) && l.all (fun e => (FMap.empty.after (fun v => v % 2 ^ 32) (zeroExOps.take 60)).get e.1 == some e.2 &&
            decide (e.1 < 2 ^ 10))
        | .error _ => false)
    | .error _ => false) = true := by decide +kernel
  split at hx
  case h_2 => cases hx
  next t as hrun =>
  simp only [Bool.and_eq_true, beq_iff_eq] at hx
  obtain ⟨⟨x1, x2⟩, x3⟩ := hx
  split at x2
  case h_2 => cases x2
  next r hr =>
  split at x3
  case h_2 => cases x3
  next l hl =>
  rw [beq_iff_eq.mp x2] at hr
  simp only [Bool.and_eq_true, decide_eq_true_eq, List.all_eq_true, beq_iff_eq] at x3
  obtain ⟨⟨x4, x5, x6⟩, x7⟩ := x3
  have hsz : t.size < 2 ^ 64 := by rw [x1]; decide
  obtain ⟨l', bytes, e1, e2, e3⟩ := C109_separate_array_file_partial exOK zeroEx_fits (by decide) (by decide) (by decide) hops hrun hsz
  rw [hl] at e1
  cases e1
  obtain ⟨bytes', f1, f2⟩ := C109_read_back_find_false exOK zeroEx_fits (by decide) (by decide) (by decide) hops hrun hsz hl x4 x5
  rw [e2] at f1
  cases f1
  obtain ⟨t', g1, g2⟩ := f2 (Tab.new (sepMapJunk exCfg (.xorshift 16) zeroEx (fun _ => 0)) 10 20) []
  obtain ⟨t'', k1, k2⟩ := e3 (Tab.new (sepMapJunk exCfg (.xorshift 16) zeroEx (fun _ => 0)) 10 20) []
  rw [g1] at k1
  cases k1
  rw [List.append_nil] at g1
  refine ⟨t, as, l, bytes, t', hrun, x1, hl, x4, e2, hr, g1, fun e he => ?_, g2 3 (by decide) x6⟩
  rw [k2.2.2.2.2.2 e.1 (x7 e he).2 (.inr (.inl (List.mem_map_of_mem he))), (x7 e he).1]
  rfl

end SC
