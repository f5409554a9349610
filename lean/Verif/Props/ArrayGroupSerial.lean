import Verif.Group.SerialOv
import Verif.Props.ArrayTableSerial
import Verif.Props.GroupSerial
import Verif.Props.Limits
/-!
# Files of `group_chaining_table` with `array_overflow` (C115)
-/
namespace SC

variable {gc : GrpCfg} {hk : HashKind} {kw vw : Nat} {c : ArrEnv} {junk : Nat → Nat} {sp : Bool}

/-- the laws of the group table with the overflow table of the correctness argument; erasures as in a table with other arrays (C58) -/
theorem grp_ideal_laws {e : GrpCfg} (h : GrpOK hk kw vw) (hf : ArrFits c (fun v => v % 2 ^ vw)) (hsp : e.strict = true → sp = true) :
    Laws ((grpTable gc hk (arrIdeal c junk)).withErase (grpOps e).eraseAt) (grpParArr c sp hk kw vw) ∧ hk.grow kw 255 64 < 65 := by
  have hS := h.hash
  have h3 : 3 ≤ kw := by cases hk <;> exact hS.1
  obtain ⟨hi1, hi2⟩ := ini_bounds (I := 8) h3 (by omega)
  obtain ⟨h4, h5, h6, h7⟩ := HashKind.hashOK (maxE := 255) (cl := 64) hS hi1 hi2 (by omega) (by omega)
  exact ⟨laws_of (lawful_grpE gc e hsp).weaken (lawful_ideal c junk) h4 h.vw_pos h.vw_le (by simp [Cfg.withErase, grpTable]) (by simp [Cfg.withErase, grpTable])
      (by simp [Cfg.withErase, grpTable]) (by simp [Cfg.withErase, grpTable]) (fun x => Nat.mod_mod _ _) (fun x => Nat.mod_eq_of_lt (hf.wide x)) (show 2 ≤ kw by omega)
      (by simp [Cfg.withErase, grpTable]) rfl h5 h6, h7⟩

/-- the part of the file behind the overflow table -/
theorem grp_bare_file (h : GrpOK hk kw vw) (hf : ArrFits c (fun v => v % 2 ^ vw)) {t : Tab GrpStore ArrOv} {l : List (Nat × Nat)}
    (hi : Inv (grpTable gc hk (arrIdeal c junk)) (grpParArr c gc.strict hk kw vw) t l) (hsz : t.size < 2 ^ 64) :
    ∃ bytes, grpSerialize gc hk t.bare = .ok bytes ∧ ∀ (t0 : Tab GrpStore Unit) (rest : List Nat),
      ∃ u, grpDeserialize gc hk t0 (bytes ++ rest) = .ok (u, rest) ∧ u.kw = t.kw ∧ u.vw = t.vw ∧ u.elems = t.elems ∧ u.bpg = t.bpg ∧
        u.tb = (if t.elems = 0 then 0 else t.tb) ∧
        Inv (grpTable gc hk (arrIdeal c junk)) (grpParArr c false hk kw vw) (u.dress t.ovf) l := by
  have hC := h.coveredE (c := gc) (e := gc) (sp := gc.strict) id
  obtain ⟨L, _⟩ := grp_ideal_laws (gc := gc) (junk := junk) h hf (e := gc) (sp := gc.strict) id
  by_cases he : t.elems = 0
  · -- no entries
    obtain ⟨hl0, n, full, hR, h1, h2, h3, h4⟩ : l = [] ∧ ∃ n full, IdealRep t.ovf n [] full ∧ t.kw = kw ∧ t.vw = vw ∧ 1 ≤ t.bpg ∧ t.bpg ≤ 64 := by
      rcases hi with ⟨h1, h2, h3, h4, h5, h6, rfl, hst, n, full, h7⟩ | ⟨cn, o, full, hl, hp⟩
      · exact ⟨rfl, n, full, h7, h1, h2, h3, h4⟩
      · have h1 := hl.elems
        rw [he] at h1
        have h2 := List.eq_nil_of_length_eq_zero h1.symm
        have h3 : o = [] := by
          have := (List.append_eq_nil_iff.mp h2).2
          exact List.map_eq_nil_iff.mp this
        subst h3
        rw [h2] at hp
        exact ⟨hp.eq_nil, _, full, hl.orep, hl.tkw, hl.tvw, hl.bpg_pos, hl.bpg_le⟩
    subst hl0
    have htb : t.tb < 64 := by
      rcases hi with ⟨_, _, _, _, h5, _⟩ | ⟨cn, o, full, hl, hp⟩
      · omega
      · exact Nat.lt_of_le_of_lt hl.hi L.hi_lt
    have hkw : kw ≤ 64 := L.kw_le
    have hvw : vw ≤ 64 := L.vw_le
    have he' : t.bare.elems = 0 := he
    refine ⟨_, by unfold grpSerialize; rw [if_pos he']; rfl, fun t0 rest => ?_⟩
    refine ⟨{ t0.clear (grpMap gc hk) with kw := t.kw, vw := t.vw, elems := 0, bpg := t.bpg }, ?_, rfl, rfl, he.symm, rfl, by rw [if_pos he]; rfl, ?_⟩
    · unfold grpDeserialize
      rw [he']
      simp only [Tab.bare, List.append_assoc, takeBytes_append _ _ (toBytes_length _ _), ok_bind, ofBytes1 (show t.kw < 256 by omega),
        ofBytes1 (show t.vw < 256 by omega), ofBytes8 (show 0 < 2 ^ 64 by omega), ofBytes1 (show t.bpg < 256 by omega),
        if_true, pure_eq_ok]
    · exact .inl ⟨h1, h2, h3, h4, rfl, rfl, rfl, rfl, n, full, hR⟩
  · rcases hi with ⟨_, _, _, _, _, h6, _⟩ | ⟨cn, o, full, hl, hp⟩
    · exact absurd h6 he
    · obtain ⟨bytes, e1, e2⟩ := grpSerialize_rep (t := t.bare) hC.laws hl.tkw hl.tvw hl.bpg_pos hl.bpg_le hl.lo hl.hi hl.rep he hsz
      refine ⟨bytes, e1, fun t0 rest => ?_⟩
      obtain ⟨u, f1, f2, f3, f4, f5, f6, f7⟩ := e2 t0 rest
      have f2 : u.kw = t.kw := f2
      have f3 : u.vw = t.vw := f3
      have f4 : u.tb = t.tb := f4
      have f6 : u.bpg = t.bpg := f6
      have e4 : (u.dress t.ovf).tb = t.tb := f4
      have hd : (u.dress t.ovf).dim (grpTable gc hk (arrIdeal c junk)) = t.bare.dim (grpMap gc hk) := by
        simp only [Tab.dim, Tab.hash, Tab.dress, Tab.bare, grpMap, grpTable, f2, f3, f4, f6]
      refine ⟨u, f1, f2, f3, f5, f6, by rw [if_neg he]; exact f4, .inr ⟨cn, o, full, ?_, ?_⟩⟩
      · exact { tkw := f2.trans hl.tkw, tvw := f3.trans hl.tvw, bpg_pos := by show 1 ≤ u.bpg; rw [f6]; exact hl.bpg_pos,
                bpg_le := by show u.bpg ≤ 64; rw [f6]; exact hl.bpg_le, lo := by rw [e4]; exact hl.lo,
                hi := by rw [e4]; exact hl.hi, rep := by rw [hd]; exact f7, orep := by rw [e4]; exact hl.orep, cok := by rw [e4]; exact hl.cok,
                ofull := by rw [e4]; exact hl.ofull, vals := by rw [e4]; exact hl.vals, ovals := hl.ovals,
                elems := by rw [e4]; exact f5.trans hl.elems }
      · rw [e4]; exact hp

/-- the invariant of C106 -/
theorem group_array_inv (h : GrpOK hk kw vw) (hf : ArrFits c (fun v => v % 2 ^ vw)) {ops : List MapOp}
    (hops : ∀ op ∈ ops, ArrCall c junk (fun v => v % 2 ^ vw) hk 64 kw op) {t : Tab GrpStore ArrOv} {as : List Ans}
    (hrun : Tab.run (grpMapJunk gc hk c junk) (Tab.new (grpMapJunk gc hk c junk) kw vw) ops = .ok (t, as)) :
    ∃ l, Inv (grpTable gc hk (arrIdeal c junk)) (grpParArr c gc.strict hk kw vw) t l ∧ Abs l (FMap.empty.after (fun v => v % 2 ^ vw) ops) := by
  obtain ⟨L, hg⟩ := grp_ideal_laws (gc := gc) (junk := junk) h hf (e := gc) (sp := gc.strict) id
  have L : Laws (grpTable gc hk (arrIdeal c junk)) (grpParArr c gc.strict hk kw vw) := L
  have A := junk_agree c junk (NotJunk c junk) (fun k hk => hk.1) (fun i hi hk => hk.2 i hi rfl)
  obtain ⟨t₁, l, r1, hi, ha, _⟩ := run_withOv (g := grpTable gc hk (arrIdeal c junk)) A L hg ops (fun op hop => ⟨ValidOp.opOK L.hi_lt L.lo_pos
    (fun v hv => hv) (show 0 % 2 ^ c.vs = 0 % 2 ^ vw by rw [Nat.zero_mod, Nat.zero_mod]) (hops op hop).1, (hops op hop).2⟩)
  have hrun : Tab.run ((grpTable gc hk (arrIdeal c junk)).withOv (arrJunk c junk)) (Tab.new ((grpTable gc hk (arrIdeal c junk)).withOv (arrJunk c junk)) kw vw) ops =
    .ok (t, as) := hrun
  have : t₁ = t := congrArg Prod.fst (Except.ok.inj (r1.symm.trans hrun))
  subst t₁
  exact ⟨l, hi, ha⟩

/-- what both parts of C115 are read off from -/
theorem group_array_file (h : GrpOK hk kw vw) (hf : ArrFits c (fun v => v % 2 ^ vw)) (hkw : kw ≤ c.ks) (hk8 : 8 ∣ c.ks) (hv8 : 8 ∣ c.vs)
    {ops : List MapOp} (hops : ∀ op ∈ ops, ArrCall c junk (fun v => v % 2 ^ vw) hk 64 kw op) {t : Tab GrpStore ArrOv} {as : List Ans}
    (hrun : Tab.run (grpMapJunk gc hk c junk) (Tab.new (grpMapJunk gc hk c junk) kw vw) ops = .ok (t, as)) (hsz : t.size < 2 ^ 64) :
    ∃ l bytes, t.ovf.content c = .ok l ∧ grpSerializeArr gc hk c t = .ok bytes ∧ ∀ (t0 : Tab GrpStore ArrOv) (rest : List Nat), ∃ t',
      grpDeserializeArr gc hk c t0 (bytes ++ rest) = .ok (t', rest) ∧ t'.kw = t.kw ∧ t'.vw = t.vw ∧ t'.size = t.size ∧ t'.bpg = t.bpg ∧
      (t.size ≠ 0 → t'.tb = t.tb) ∧ (l ≠ [] → t.tb ≠ 0 ∧ t.size ≠ 0) ∧ t'.ovf.elems = l.length ∧ t'.ovf.keys = some (l.map (fun e => some e.1)) ∧
      t'.ovf.content c = .ok l ∧
      ∀ k < 2 ^ kw, l = [] ∨ k ∈ l.map Prod.fst ∨ l.length = arrLength → t'.lookup (grpMapJunk gc hk c junk) k =
        .ok (((FMap.empty.after (fun v => v % 2 ^ vw) ops).get k).map (fun v => (k, v))) := by
  obtain ⟨L, hg⟩ := grp_ideal_laws (gc := gc) (junk := junk) h hf (e := gc) (sp := gc.strict) id
  have L : Laws (grpTable gc hk (arrIdeal c junk)) (grpParArr c gc.strict hk kw vw) := L
  obtain ⟨L', _⟩ := grp_ideal_laws (gc := gc) (junk := junk) h hf (e := gc.flat) (sp := false) (by simp)
  obtain ⟨l, hi, ha⟩ := group_array_inv h hf hops hrun
  obtain ⟨o, n, full, hR, ho, ht0⟩ : ∃ o n full, IdealRep t.ovf n o full ∧ (∀ e ∈ o, e.2.1 < 2 ^ c.ks ∧ e.2.2 < 2 ^ c.vs) ∧
      (o ≠ [] → t.tb ≠ 0 ∧ t.size ≠ 0) := by
    rcases hi with ⟨_, _, _, _, _, _, _, _, n, full, h7⟩ | ⟨cn, o, full, hl, _⟩
    · exact ⟨[], n, full, h7, by simp, by simp⟩
    · refine ⟨o, _, full, hl.orep, fun e he => ⟨?_, ?_⟩, fun hne => ⟨by have := hl.tb_pos L; omega, ?_⟩⟩
      · exact Nat.lt_of_lt_of_le (hl.cok.osrc e he).1 (Nat.pow_le_pow_right (by omega) hkw)
      · have := hl.ovals e he
        have this : e.2.2 % 2 ^ vw = e.2.2 := this
        rw [← this]; exact hf.wide _
      · have h1 := List.length_pos_iff.mpr hne
        show t.elems ≠ 0
        rw [hl.elems]
        simp only [ents, List.length_append, List.length_map]
        omega
  have hA := hR.arrRep ho
  obtain ⟨ob, s1, s2⟩ := hA.serialize hk8 hv8
  obtain ⟨bytes, e1, e2⟩ := grp_bare_file h hf hi hsz
  refine ⟨o.map Prod.snd, ob ++ bytes, hA.content, by simp only [grpSerializeArr, s1, e1, ok_bind, pure_eq_ok], fun t0 rest => ?_⟩
  obtain ⟨u, f1, f2, f3, f5, fb, f4, f6⟩ := e2 t0.bare rest
  obtain ⟨o', w1, w2, w3, w4⟩ : ∃ o' : ArrOv, grpDeserializeArr gc hk c t0 (ob ++ bytes ++ rest) = .ok (u.dress o', rest) ∧
      o'.elems = (o.map Prod.snd).length ∧ o'.keys = some ((o.map Prod.snd).map (fun e => some e.1)) ∧
      o'.vals = some ((o.map Prod.snd).map (fun e => some e.2)) := by
    by_cases hu : u.elems = 0
    · exact ⟨_, by simp only [grpDeserializeArr, List.append_assoc, s2, f1, ok_bind, pure_eq_ok, if_pos hu]; rfl, rfl, rfl, rfl⟩
    · exact ⟨_, by simp only [grpDeserializeArr, List.append_assoc, s2, f1, ok_bind, pure_eq_ok, if_neg hu, arrOverflow]; rfl, rfl, rfl, rfl⟩
  have htb : u.tb < 64 := by
    have := Sem.tb_lt L ⟨l, hi, ha⟩
    rw [f4]; split <;> omega
  refine ⟨_, w1, f2, f3, f5, fb, fun hne => by have hne : t.elems ≠ 0 := hne; show u.tb = t.tb; rw [f4, if_neg hne], fun hne => ht0 (by intro e; subst e; exact hne rfl), w2, w3,
    arr_content w2 w3 w4, ?_⟩
  intro k hk' hc
  have hlk := Sem.lookup L' ⟨l, Inv_withErase.mpr f6, ha⟩ hk'
  rw [lookup_withErase] at hlk
  have hal : OvAlike (arrJunk c junk) (arrIdeal c junk) k o' t.ovf :=
    read_alike hR hA (by rw [w2, List.length_map]) (by rw [w3, List.map_map]; rfl) (by rw [w4, List.map_map]; rfl)
      (Nat.lt_of_lt_of_le hk' (Nat.pow_le_pow_right (by omega) hkw)) (by
        rcases hc with hc | hc | hc
        · exact .inl (List.map_eq_nil_iff.mp hc)
        · rw [List.map_map] at hc; exact .inr (.inl hc)
        · rw [List.length_map] at hc; exact .inr (.inr hc))
  exact (OvAlike.lookup (g := grpTable gc hk (arrIdeal c junk)) hal (u.dress t.ovf) htb).trans hlk

/-- **C115**, true part: C109 for `group_chaining_table`: exactly the bytes written are consumed, and the table read has the same widths, the
same `size()`, the same number of buckets per group, the same number of buckets if there are elements, and the same pairs in its overflow
table, each of which is found; if the overflow table is empty or full, every key is answered as by a finite map.  Missing: the keys in the
groups, and the absent ones, if between 1 and 255 elements are in the overflow table, see `C115_group_find_false`. -/
theorem C115_group_array_file_partial (h : GrpOK hk kw vw) (hf : ArrFits c (fun v => v % 2 ^ vw)) (hkw : kw ≤ c.ks) (hk8 : 8 ∣ c.ks) (hv8 : 8 ∣ c.vs)
    {ops : List MapOp} (hops : ∀ op ∈ ops, ArrCall c junk (fun v => v % 2 ^ vw) hk 64 kw op) {t : Tab GrpStore ArrOv} {as : List Ans}
    (hrun : Tab.run (grpMapJunk gc hk c junk) (Tab.new (grpMapJunk gc hk c junk) kw vw) ops = .ok (t, as)) (hsz : t.size < 2 ^ 64) :
    ∃ l bytes, t.ovf.content c = .ok l ∧ grpSerializeArr gc hk c t = .ok bytes ∧ ∀ (t0 : Tab GrpStore ArrOv) (rest : List Nat), ∃ t',
      grpDeserializeArr gc hk c t0 (bytes ++ rest) = .ok (t', rest) ∧ t'.kw = t.kw ∧ t'.vw = t.vw ∧ t'.size = t.size ∧ t'.bpg = t.bpg ∧
      (t.size ≠ 0 → t'.bucketCount = t.bucketCount) ∧ t'.ovf.content c = .ok l ∧
      ∀ k < 2 ^ kw, l = [] ∨ k ∈ l.map Prod.fst ∨ l.length = arrLength → t'.lookup (grpMapJunk gc hk c junk) k =
        .ok (((FMap.empty.after (fun v => v % 2 ^ vw) ops).get k).map (fun v => (k, v))) := by
  obtain ⟨l, bytes, h1, h2, h3⟩ := group_array_file h hf hkw hk8 hv8 hops hrun hsz
  refine ⟨l, bytes, h1, h2, fun t0 rest => ?_⟩
  obtain ⟨t', g1, g2, g3, g4, gb, g5, _, _, _, g6, g7⟩ := h3 t0 rest
  exact ⟨t', g1, g2, g3, g4, gb, fun h0 => by unfold Tab.bucketCount; rw [g5 h0], g6, g7⟩

/-- **C115** is false: after any such calls that leave at least one and at most 255 elements in the overflow table, `find` reads behind the
end of an array in the table that has been read, for every key that is not in the overflow table. -/
theorem C115_group_find_false (h : GrpOK hk kw vw) (hf : ArrFits c (fun v => v % 2 ^ vw)) (hkw : kw ≤ c.ks) (hk8 : 8 ∣ c.ks) (hv8 : 8 ∣ c.vs)
    {ops : List MapOp} (hops : ∀ op ∈ ops, ArrCall c junk (fun v => v % 2 ^ vw) hk 64 kw op) {t : Tab GrpStore ArrOv} {as : List Ans}
    (hrun : Tab.run (grpMapJunk gc hk c junk) (Tab.new (grpMapJunk gc hk c junk) kw vw) ops = .ok (t, as)) (hsz : t.size < 2 ^ 64)
    {l : List (Nat × Nat)} (hl : t.ovf.content c = .ok l) (h0 : 0 < l.length) (h1 : l.length < arrLength) :
    ∃ bytes, grpSerializeArr gc hk c t = .ok bytes ∧ ∀ (t0 : Tab GrpStore ArrOv) (rest : List Nat), ∃ t',
      grpDeserializeArr gc hk c t0 (bytes ++ rest) = .ok (t', rest) ∧
      ∀ k < 2 ^ kw, k ∉ l.map Prod.fst → t'.find (grpMapJunk gc hk c junk) k = .error .oob := by
  obtain ⟨l', bytes, e1, e2, e3⟩ := group_array_file h hf hkw hk8 hv8 hops hrun hsz
  rw [hl] at e1
  cases e1
  refine ⟨bytes, e2, fun t0 rest => ?_⟩
  obtain ⟨t', g1, _, _, _, _, g5, g6, g7, g8, _⟩ := e3 t0 rest
  refine ⟨t', g1, fun k hk' hm => ?_⟩
  have h1' : l.length < 256 := h1
  have hne := g6 (by intro e; subst e; simp at h0)
  have htb : t'.tb ≠ 0 := by rw [g5 hne.2]; exact hne.1
  have hf' : (arrJunk c junk).find t'.ovf k = .error .oob := by
    have := arr_scan l k (255 - l.length) (by omega)
    rw [show l.length + (255 - l.length + 1) = 256 by omega, if_neg hm] at this
    show scanFrom t'.ovf.keys (k % 2 ^ c.ks) 0 arrLength = _
    rw [g8, Nat.mod_eq_of_lt (Nat.lt_of_lt_of_le hk' (Nat.pow_le_pow_right (by omega) hkw))]
    exact this
  have hs : 0 < (arrJunk c junk).size t'.ovf := by show 0 < t'.ovf.elems; omega
  unfold Tab.find
  rw [if_neg htb]
  simp only [grpTable, if_pos hs, hf', error_bind]

/-! ## A table whose overflow table is in use

More than 255 keys of the same group cannot be evaluated, so the example is reasoned about. -/

/-- as long as the overflow table is not full, an insertion does not rehash -/
theorem arr_insert_keeps {S : Type} {g : Cfg S ArrOv} (hov : g.ov = arrJunk c junk) {f : Nat} {t t' : Tab S ArrOv} {k v : Nat} {n : Nav}
    (htb : t.tb ≠ 0) (he : t.ovf.elems < arrLength) (h : t.findOrInsert g (f + 1) k v = .ok (t', n)) :
    t'.tb = t.tb ∧ t'.bpg = t.bpg ∧ t'.ovf.elems ≤ t.ovf.elems + 1 := by
  unfold Tab.findOrInsert at h
  obtain ⟨_, _, h⟩ := bind_eq_ok h
  rw [if_neg htb] at h
  simp only [ok_bind] at h
  obtain ⟨qb, _, h⟩ := bind_eq_ok h
  obtain ⟨_, _, h⟩ := bind_eq_ok h
  obtain ⟨pos, _, h⟩ := bind_eq_ok h
  split at h
  · cases h; exact ⟨rfl, rfl, Nat.le_succ _⟩
  obtain ⟨cs, _, h⟩ := bind_eq_ok h
  obtain ⟨op, _, h⟩ := bind_eq_ok h
  split at h
  · cases h; exact ⟨rfl, rfl, Nat.le_succ _⟩
  obtain ⟨fl, _, h⟩ := bind_eq_ok h
  split at h
  · have hs : g.ov.size t.ovf < g.ov.capacity t.ovf := by rw [hov]; exact he
    rw [if_pos hs] at h
    obtain ⟨⟨o, p⟩, h1, h⟩ := bind_eq_ok h
    rw [hov] at h1
    obtain ⟨rfl, h2⟩ : p = t.ovf.elems ∧ o.elems = t.ovf.elems + 1 := by
      simp only [arrJunk, arrOverflow] at h1
      split at h1
      · obtain ⟨_, _, h1⟩ := bind_eq_ok h1
        obtain ⟨_, _, h1⟩ := bind_eq_ok h1
        cases h1; exact ⟨rfl, rfl⟩
      · cases h1
    have hne : t.ovf.elems ≠ NPOS := by
      have : t.ovf.elems < 256 := he
      have : (256 : Nat) < NPOS := by decide
      omega
    simp only [if_pos hne] at h
    cases h
    exact ⟨rfl, rfl, Nat.le_of_eq h2⟩
  · obtain ⟨m, _, h⟩ := bind_eq_ok h
    obtain ⟨s, _, h⟩ := bind_eq_ok h
    cases h; exact ⟨rfl, rfl, Nat.le_succ _⟩

/-- several insertions -/
theorem arr_inserts_keep {S : Type} {g : Cfg S ArrOv} (hov : g.ov = arrJunk c junk) (v : Nat) : ∀ (ks : List Nat) {t t' : Tab S ArrOv} {as : List Ans},
    t.tb ≠ 0 → t.ovf.elems + ks.length ≤ arrLength → Tab.run g t (ks.map (fun k => .insert k v)) = .ok (t', as) →
    t'.tb = t.tb ∧ t'.bpg = t.bpg ∧ t'.ovf.elems ≤ t.ovf.elems + ks.length := by
  intro ks
  induction ks with
  | nil => intro t t' as _ _ h; cases h; exact ⟨rfl, rfl, Nat.le_refl _⟩
  | cons k ks ih =>
    intro t t' as htb he h
    rw [List.length_cons] at he ⊢
    rw [List.map_cons, Tab.run] at h
    obtain ⟨⟨t1, a⟩, h1, h2⟩ := bind_eq_ok h
    obtain ⟨⟨t2, as2⟩, h3, h4⟩ := bind_eq_ok h2
    cases h4
    simp only [Tab.step] at h1
    obtain ⟨⟨t3, n⟩, h5, h1⟩ := bind_eq_ok h1
    obtain ⟨_, _, h1⟩ := bind_eq_ok h1
    obtain ⟨_, _, h1⟩ := bind_eq_ok h1
    cases h1
    obtain ⟨k1, k2, k3⟩ := arr_insert_keeps hov htb (by omega) h5
    have h3 : Tab.run g t3 (ks.map (fun k => .insert k v)) = .ok (t', as2) := h3
    obtain ⟨r1, r2, r3⟩ := ih (by rw [k1]; exact htb) (by omega) h3
    exact ⟨r1.trans k1, r2.trans k2, by omega⟩

/-- with an empty overflow table, there are at most 255 elements in the first group, for any table class that stores groups -/
theorem group_crowd_gen {S O : Type} {g : Cfg S O} {P : Par S O} (L : Laws g P)
    {t : Tab S O} {l : List (Nat × Nat)} {cn : Cont} {full : Nat → Bool} (hl : Live g P t cn [] full) {s : GrpStore} (hR : GrpRep sp s (t.dim g) cn)
    (hp : l.Perm (ents (g.hash P.kw) t.tb cn []))
    (hall : ∀ e ∈ l, ∃ q b, (g.hash P.kw).map e.1 t.tb = .ok (q, b) ∧ b < t.bpg) : t.size ≤ 255 := by
  have hout : ∀ b, t.bpg ≤ b → cn b = [] := by
    intro b hb
    by_cases hlt : b < 2 ^ t.tb
    · refine List.eq_nil_iff_forall_not_mem.mpr fun e he => ?_
      obtain ⟨k, hk1, hk2⟩ := hl.cok.src b hlt e he
      have hm : (k, e.2) ∈ ents (g.hash P.kw) t.tb cn [] := by
        simp only [ents, stored, List.map_nil, List.append_nil, List.mem_flatMap, List.mem_range]
        refine ⟨b, hlt, List.mem_map.mpr ⟨e, he, ?_⟩⟩
        have := (invKey_of_map (Live.map_ok L hl) hk1 hk2).1
        exact Prod.ext this rfl
      obtain ⟨q, b', g1, g2⟩ := hall _ (hp.mem_iff.mpr hm)
      have g1 : (g.hash P.kw).map k t.tb = .ok (q, b') := g1
      rw [hk2] at g1
      have : b = b' := congrArg Prod.snd (Except.ok.inj g1)
      omega
    · exact hR.out b (by show 2 ^ t.tb ≤ b; omega)
  have hs : t.size = pre (fun b => (cn b).length) (2 ^ t.tb) := by
    rw [pre_eq_sum]; exact hl.size_sum
  have h3 : (flat (localCont t.bpg cn 0) t.bpg).length ≤ 255 := by
    rcases hR.grp 0 (by rw [hR.n]; exact Nat.succ_pos _) with ⟨_, g2⟩ | ⟨_, g2⟩
    · rw [flat_length, pre_zero_beyond (a := 0) _ (Nat.zero_le _)]
      · exact Nat.zero_le _
      · intro i _
        rw [show localCont t.bpg cn 0 i = [] from g2 i]; rfl
    · exact g2
  rw [flat_length] at h3
  have h4 : pre (fun b => (localCont t.bpg cn 0 b).length) t.bpg = pre (fun b => (cn b).length) t.bpg := by
    have : ∀ n, n ≤ t.bpg → pre (fun b => (localCont t.bpg cn 0 b).length) n = pre (fun b => (cn b).length) n := by
      intro n
      induction n with
      | zero => intro _; rfl
      | succ n ih =>
        intro hn
        simp only [pre]
        rw [ih (by omega)]
        simp only [localCont, if_pos (show n < t.bpg by omega), Nat.zero_mul, Nat.zero_add]
    exact this _ (Nat.le_refl _)
  have h5 : pre (fun b => (cn b).length) (2 ^ t.tb) ≤ pre (fun b => (cn b).length) t.bpg := by
    rcases Nat.le_total t.bpg (2 ^ t.tb) with hle | hle
    · rw [pre_zero_beyond _ hle]
      intro i hi; rw [hout i hi]; rfl
    · have : ∀ d, pre (fun b => (cn b).length) (2 ^ t.tb) ≤ pre (fun b => (cn b).length) (2 ^ t.tb + d) := by
        intro d
        induction d with
        | zero => exact Nat.le_refl _
        | succ d ih => rw [← Nat.add_assoc]; simp only [pre]; omega
      have := this (t.bpg - 2 ^ t.tb)
      rwa [show 2 ^ t.tb + (t.bpg - 2 ^ t.tb) = t.bpg by omega] at this
  omega

/-- with an empty overflow table, there are at most 255 elements in the first group -/
theorem group_crowd {O : Type} {ov : OverflowOps O} {P : Par GrpStore O} (L : Laws (grpTable gc hk ov) P) (hrep : P.Rep = GrpRep sp) (hkw : P.kw = kw)
    {t : Tab GrpStore O} {l : List (Nat × Nat)} {cn : Cont} {full : Nat → Bool} (hl : Live (grpTable gc hk ov) P t cn [] full)
    (hp : l.Perm (ents ((grpTable gc hk ov).hash P.kw) t.tb cn []))
    (hall : ∀ e ∈ l, ∃ q b, (hk.mapping kw).map e.1 t.tb = .ok (q, b) ∧ b < t.bpg) : t.size ≤ 255 := by
  subst hkw
  exact group_crowd_gen (sp := sp) L hl (by rw [← hrep]; exact hl.rep) hp hall

/-- keys of a table hold at most 255 in the same group; the others are in the overflow table -/
theorem group_spill (h : GrpOK hk kw vw) (hf : ArrFits c (fun v => v % 2 ^ vw)) {t : Tab GrpStore ArrOv} {l : List (Nat × Nat)}
    (hi : Inv (grpTable gc hk (arrIdeal c junk)) (grpParArr c gc.strict hk kw vw) t l) (hsz : 255 < t.size)
    (hall : ∀ e ∈ l, ∃ q b, (hk.mapping kw).map e.1 t.tb = .ok (q, b) ∧ b < t.bpg) : 0 < t.ovf.elems := by
  obtain ⟨L, _⟩ := grp_ideal_laws (gc := gc) (junk := junk) h hf (e := gc) (sp := gc.strict) id
  have L : Laws (grpTable gc hk (arrIdeal c junk)) (grpParArr c gc.strict hk kw vw) := L
  rcases hi with ⟨_, _, _, _, _, h6, _⟩ | ⟨cn, o, full, hl, hp⟩
  · have : t.size = 0 := h6
    omega
  have ho : t.ovf.elems = o.length := hl.orep.elems
  rw [ho]
  refine Nat.pos_of_ne_zero fun h0 => ?_
  have h0 := List.eq_nil_of_length_eq_zero h0
  subst h0
  have := group_crowd L (kw := kw) rfl rfl hl hp hall
  omega

/-- 256 keys of the first three buckets, which are a group -/
def spillKeys : List Nat := (((List.range 800).map (· + 1)).filter (fun k => match ((HashKind.xorshift 64).mapping 11).map k 3 with
  | .ok (_, b) => decide (b < 3)
  | .error _ => false)).take 256

def spillOps : List MapOp := spillKeys.map (fun k => .insert k 5)

theorem spillKeys_bucket : ∀ k ∈ spillKeys, ∃ q b, ((HashKind.xorshift 64).mapping 11).map k 3 = .ok (q, b) ∧ b < 3 := by
  intro k hk
  have h := (List.mem_filter.mp (List.mem_of_mem_take hk)).2
  split at h
  · next q b e => exact ⟨q, b, e, of_decide_eq_true h⟩
  · cases h

theorem spill_ops_ok : ∀ op ∈ spillOps, ArrCall zeroEx (fun _ => 0) (fun v => v % 2 ^ 13) (.xorshift 64) 64 11 op := by decide +kernel

/-- the keys of a map after insertions -/
theorem after_inserts {tr : Nat → Nat} {v : Nat} : ∀ (ks : List Nat) {m : FMap} {k x : Nat}, (m.after tr (ks.map (fun k => .insert k v))).get k = some x →
    k ∈ ks ∨ m.get k = some x := by
  intro ks
  induction ks with
  | nil => intro m k x h; exact .inr h
  | cons a ks ih =>
    intro m k x h
    rw [List.map_cons, FMap.after] at h
    rcases ih h with h | h
    · exact .inl (List.mem_cons_of_mem _ h)
    · simp only [FMap.step] at h
      split at h
      · exact .inr h
      · simp only [FMap.put] at h
        split at h
        · next e => exact .inl (by rw [e]; exact List.mem_cons_self)
        · exact .inr h

theorem spill_ex : ∃ t, Tab.run (grpMapJunk grpEx (.xorshift 64) zeroEx (fun _ => 0)) (Tab.new (grpMapJunk grpEx (.xorshift 64) zeroEx (fun _ => 0)) 11 13)
    spillOps = .ok (t, FMap.empty.run (fun v => v % 2 ^ 13) spillOps) ∧ t.size = 256 ∧ 0 < t.ovf.elems ∧ t.ovf.elems < 256 := by
  have hf : ArrFits zeroEx (fun v => v % 2 ^ 13) := ⟨rfl, fun _ => Nat.lt_trans (Nat.mod_lt _ (by decide)) (by decide)⟩
  obtain ⟨t, hrun⟩ := C106_group_array_partial (gc := grpEx) grpExOK hf _ spill_ops_ok
  obtain ⟨l, hi, ha⟩ := group_array_inv grpExOK hf spill_ops_ok hrun
  have hsz : t.size = 256 := by
    have h1 := Sem.size (P := grpParArr zeroEx grpEx.strict (.xorshift 64) 11 13) ⟨l, hi, ha⟩
    rw [h1]
    decide +kernel
  obtain ⟨ks, hks, hlen⟩ : ∃ ks, spillKeys = 1 :: ks ∧ ks.length = 255 := by
    have h1 : (match spillKeys with | [] => false | k :: ks => k == 1 && ks.length == 255) = true := by decide +kernel
    cases e : spillKeys with
    | nil => rw [e] at h1; cases h1
    | cons k ks =>
      rw [e] at h1
      simp only [Bool.and_eq_true, beq_iff_eq] at h1
      exact ⟨ks, by rw [h1.1], h1.2⟩
  have hone : (match Tab.step (grpMapJunk grpEx (.xorshift 64) zeroEx (fun _ => 0)) (Tab.new (grpMapJunk grpEx (.xorshift 64) zeroEx (fun _ => 0)) 11 13)
      (.insert 1 5) with
      | .ok (t1, _) => t1.tb == 3 && t1.bpg == 3 && t1.ovf.elems == 0
      | .error _ => false) = true := by decide +kernel
  have hrun' := hrun
  rw [spillOps, hks, List.map_cons, Tab.run] at hrun'
  obtain ⟨⟨t1, a⟩, h1, h2⟩ := bind_eq_ok hrun'
  obtain ⟨⟨t2, as⟩, h3, h4⟩ := bind_eq_ok h2
  have h4 : t2 = t := congrArg Prod.fst (Except.ok.inj h4)
  subst h4
  rw [h1] at hone
  simp only [Bool.and_eq_true, beq_iff_eq] at hone
  obtain ⟨⟨o1, o2⟩, o3⟩ := hone
  have h3 : Tab.run (grpMapJunk grpEx (.xorshift 64) zeroEx (fun _ => 0)) t1 (ks.map (fun k => .insert k 5)) = .ok (t2, as) := h3
  obtain ⟨r1, r2, r3⟩ := arr_inserts_keep (g := grpMapJunk grpEx (.xorshift 64) zeroEx (fun _ => 0)) rfl 5 ks (by rw [o1]; decide)
    (by rw [o3, hlen]; decide) h3
  refine ⟨t2, hrun, hsz, group_spill grpExOK hf hi (by rw [hsz]; decide) ?_, by omega⟩
  intro e he
  rw [r1, o1, r2, o2]
  have := (ha.get e.1 e.2).mpr he
  rw [spillOps] at this
  rcases after_inserts _ this with h | h
  · exact spillKeys_bucket _ h
  · cases h

theorem mapM_length {α β : Type} {f : α → Res β} : ∀ {l : List α} {r : List β}, l.mapM f = .ok r → r.length = l.length := by
  intro l
  induction l with
  | nil => intro r h; cases h; rfl
  | cons a l ih =>
    intro r h
    rw [List.mapM_cons] at h
    obtain ⟨x, _, h2⟩ := bind_eq_ok h
    obtain ⟨y, h3, h4⟩ := bind_eq_ok h2
    cases h4
    rw [List.length_cons, List.length_cons, ih h3]

/-- The example: 256 keys are stored, and in the table that is read back searches succeed for the keys of the overflow table only. -/
theorem C115_file_ex : ∃ t as l bytes, Tab.run (grpMapJunk grpEx (.xorshift 64) zeroEx (fun _ => 0))
      (Tab.new (grpMapJunk grpEx (.xorshift 64) zeroEx (fun _ => 0)) 11 13) spillOps = .ok (t, as) ∧ t.size = 256 ∧
    t.ovf.content zeroEx = .ok l ∧ 0 < l.length ∧ grpSerializeArr grpEx (.xorshift 64) zeroEx t = .ok bytes ∧
    ∀ t0, ∃ t', grpDeserializeArr grpEx (.xorshift 64) zeroEx t0 bytes = .ok (t', []) ∧ t'.size = 256 ∧
      (∀ e ∈ l, e.1 < 2 ^ 11 → t'.lookup (grpMapJunk grpEx (.xorshift 64) zeroEx (fun _ => 0)) e.1 = .ok (((FMap.empty.after (fun v => v % 2 ^ 13) spillOps).get e.1).map (fun v => (e.1, v)))) ∧
      ∀ k < 2 ^ 11, k ∉ l.map Prod.fst → t'.find (grpMapJunk grpEx (.xorshift 64) zeroEx (fun _ => 0)) k = .error .oob := by
  have hf : ArrFits zeroEx (fun v => v % 2 ^ 13) := ⟨rfl, fun _ => Nat.lt_trans (Nat.mod_lt _ (by decide)) (by decide)⟩
  obtain ⟨t, hrun, hsz, h0, h1⟩ := spill_ex
  have hlt : t.size < 2 ^ 64 := by rw [hsz]; decide
  obtain ⟨l, bytes, e1, e2, e3⟩ := group_array_file grpExOK hf (by decide) (by decide) (by decide) spill_ops_ok hrun hlt
  have hll : l.length = t.ovf.elems := (mapM_length e1).trans List.length_range
  obtain ⟨bytes', f1, f2⟩ := C115_group_find_false grpExOK hf (by decide) (by decide) (by decide) spill_ops_ok hrun hlt e1 (by omega)
    (by show l.length < 256; omega)
  rw [e2] at f1
  cases f1
  refine ⟨t, _, l, bytes, hrun, hsz, e1, by omega, e2, fun t0 => ?_⟩
  obtain ⟨t', g1, g2⟩ := f2 t0 []
  obtain ⟨t'', k1, _, _, k2, _, _, _, _, _, _, k3⟩ := e3 t0 []
  rw [g1] at k1
  cases k1
  rw [List.append_nil] at g1
  exact ⟨t', g1, by rw [k2, hsz], fun e he hlt => k3 e.1 hlt (.inr (.inl (List.mem_map_of_mem he))), g2⟩

end SC
