import Verif.Table.StableOv
import Verif.Props.Overflow
/-!
# How long a navigator of a table with `map_overflow` can be used: C122
-/
namespace SC

variable {KB VB : Type} {p : SepCfg KB VB} {hk : HashKind} {tr : Nat → Nat → Nat} {W kw vw : Nat} {c : MapEnv} {gc : GrpCfg}

theorem steady_map (hc : c.good) : SteadyErase (mapOverflow c) (MapRep c) := by
  intro o n l full l₁ l₂ e h hl
  obtain ⟨o', l', h1, h2, h3⟩ := (lawful_map c hc).erase o n l full l₁ l₂ e h hl
  refine ⟨o', h1, ?_⟩
  have hcount : o'.count = o.count := by
    have h1 : (do let e ← o.entry c e.1; return { o with items := o.items.filter (fun x => x.1 != e.1) } : Res MapOv) = .ok o' := h1
    obtain ⟨_, _, h1⟩ := bind_eq_ok h1
    cases h1
    rfl
  have key : ∀ (xs ys : List (Nat × Nat × Nat)), xs.map Prod.snd = ys.map Prod.snd → (∀ a ∈ xs, a.1 = c.bkt o.count a.2.1) →
      (∀ a ∈ ys, a.1 = c.bkt o.count a.2.1) → xs = ys := by
    intro xs
    induction xs with
    | nil => intro ys h _ _; cases ys with
      | nil => rfl
      | cons y ys => cases h
    | cons x xs ih =>
      intro ys h hx hy
      cases ys with
      | nil => cases h
      | cons y ys =>
        simp only [List.map_cons, List.cons.injEq] at h
        have e1 := hx x (by simp)
        have e2 := hy y (by simp)
        rw [h.1, ← e2] at e1
        rw [ih ys h.2 (fun a ha => hx a (by simp [ha])) (fun a ha => hy a (by simp [ha])), Prod.ext e1 h.1]
  have e : l' = l₁ ++ l₂ := key _ _ h2 (fun a ha => by rw [h3.pos a ha, hcount]) (fun a ha => h.pos a (by
    rw [hl]
    rcases List.mem_append.mp ha with ha | ha <;> simp [ha]))
  rw [← e]
  exact h3

/-- **C122** for `separate_chaining_map<..., map_overflow>` -/
theorem C122_separate_overflow_stable (h : SepOK p hk tr W kw vw) (hc : c.good) (hf : OvFits c (tr vw)) {ops : List MapOp}
    (hops : ∀ op ∈ ops, OvValid c (tr vw) hk W kw op) {t : Tab (SepStore KB VB) MapOv} {as : List Ans}
    (ht : Tab.run (sepMapOv p hk c) (Tab.new (sepMapOv p hk c) kw vw) ops = .ok (t, as)) :
    StableOvSpec (sepMapOv p hk c) kw (OvValid c (tr vw) hk W kw) t := by
  obtain ⟨P, t', l, L, h1, h2, h3, h4, rfl, _, hg, hv⟩ := sep_ov_run h hc hf hops
  rw [h1] at ht
  cases ht
  exact fact_stableOvSpec L (by rw [h4]; exact steady_map hc) hg hv ⟨l, h2, h3⟩

/-- **C122** for `group_chaining_table<..., map_overflow>` -/
theorem C122_group_overflow_stable (h : GrpOK hk kw vw) (hc : c.good) (hf : OvFits c (fun v => v % 2 ^ vw)) {ops : List MapOp}
    (hops : ∀ op ∈ ops, OvValid c (fun v => v % 2 ^ vw) hk 64 kw op) {t : Tab GrpStore MapOv} {as : List Ans}
    (ht : Tab.run (grpTable gc hk (mapOverflow c)) (Tab.new (grpTable gc hk (mapOverflow c)) kw vw) ops = .ok (t, as)) :
    StableOvSpec (grpTable gc hk (mapOverflow c)) kw (OvValid c (fun v => v % 2 ^ vw) hk 64 kw) t := by
  obtain ⟨L, hg⟩ := grp_ov_laws (gc := gc) h hc hf
  have hv : ∀ op, OvValid c (fun v => v % 2 ^ vw) hk 64 kw op → OpOK (grpParOv c gc.strict hk kw vw) op := fun op hop =>
    ValidOp.opOK (P := grpParOv c gc.strict hk kw vw) L.hi_lt L.lo_pos (fun v hv => hv)
      (show c.val 0 = 0 % 2 ^ vw by rw [Nat.zero_mod]; exact Nat.zero_mod _) hop
  obtain ⟨t', l, r1, r2, r3⟩ := Tab.run_new L hg ops (fun op hop => hv op (hops op hop))
  have r1' : Tab.run (grpTable gc hk (mapOverflow c)) (Tab.new (grpTable gc hk (mapOverflow c)) kw vw) ops = .ok (t', _) := r1
  rw [ht] at r1'
  cases r1'
  exact fact_stableOvSpec L (steady_map hc) hg hv ⟨l, r2, r3⟩

/-- the navigator of a key before and after further calls, and the numbers of buckets -/
def navTraceOv {S : Type} (g : Cfg S MapOv) (kw vw : Nat) (ops ops' : List MapOp) (k : Nat) : Option (Nav × Nav × Nat × Nat) :=
  match Tab.run g (Tab.new g kw vw) ops with
  | .ok (t, _) => match t.run g ops', t.find g k with
    | .ok (t', _), .ok n => match t'.find g k with
      | .ok n' => some (n, n', t.bucketCount, t'.bucketCount)
      | .error _ => none
    | _, _ => none
  | .error _ => none

theorem navTraceOv_spec {S : Type} {g : Cfg S MapOv} {kw vw : Nat} {ops ops' : List MapOp} {k : Nat} {n n' : Nav} {x x' : Nat}
    (h : navTraceOv g kw vw ops ops' k = some (n, n', x, x')) : ∃ t t' as as', Tab.run g (Tab.new g kw vw) ops = .ok (t, as) ∧
      t.run g ops' = .ok (t', as') ∧ t.find g k = .ok n ∧ t'.find g k = .ok n' ∧ t.bucketCount = x ∧ t'.bucketCount = x' := by
  unfold navTraceOv at h
  cases h1 : Tab.run g (Tab.new g kw vw) ops with
  | error e => rw [h1] at h; cases h
  | ok r =>
    obtain ⟨t, as⟩ := r
    rw [h1] at h
    simp only at h
    cases h2 : t.run g ops' with
    | error e => rw [h2] at h; cases h
    | ok r' =>
      obtain ⟨t', as'⟩ := r'
      cases h3 : t.find g k with
      | error e => rw [h2, h3] at h; cases h
      | ok m =>
        rw [h2, h3] at h
        simp only at h
        cases h4 : t'.find g k with
        | error e => rw [h4] at h; cases h
        | ok m' =>
          rw [h4] at h
          cases h
          exact ⟨t, t', as, as', rfl, h2, h3, h4, rfl, rfl⟩

/-- 59 elements in 32 buckets, of which four are in the overflow table.  Key 697 is in the overflow table, at position 16.  It stays there during
further insertions and an assignment, and when key 816 in the overflow table at position 11 is erased. -/
example : navTraceOv (sepMapOv exCfg (.xorshift 16) ovEx) 10 20 ovExOps [.insert 1001 1, .insert 1013 3, .assign 697 9, .get 5, .shrink] 697 =
      some (⟨32, 16⟩, ⟨32, 16⟩, 32, 32) ∧
    navTraceOv (sepMapOv exCfg (.xorshift 16) ovEx) 10 20 ovExOps [.erase 816] 697 = some (⟨32, 16⟩, ⟨32, 16⟩, 32, 32) ∧
    navTraceOv (sepMapOv exCfg (.xorshift 16) ovEx) 10 20 ovExOps [] 816 = some (⟨32, 11⟩, ⟨32, 11⟩, 32, 32) :=
  ⟨by decide +kernel, by decide +kernel, by decide +kernel⟩

example : ∃ t as, Tab.run (sepMapOv exCfg (.xorshift 16) ovEx) (Tab.new (sepMapOv exCfg (.xorshift 16) ovEx) 10 20) ovExOps = .ok (t, as) ∧
    t.size = 59 ∧ t.ovf.items.length = 4 ∧
    StableOvSpec (sepMapOv exCfg (.xorshift 16) ovEx) 10 (OvValid ovEx (fun v => v % 2 ^ 32) (.xorshift 16) 16 10) t := by
  obtain ⟨t, as, h1, h2, h3⟩ := ovExAfter
  exact ⟨t, as, h1, h2, h3, C122_separate_overflow_stable exOK ovEx_good ovEx_fits ovExOps_valid h1⟩

example : ∃ t as, Tab.run (grpTable grpEx (.xorshift 64) (mapOverflow ovEx)) (Tab.new (grpTable grpEx (.xorshift 64) (mapOverflow ovEx)) 11 13)
      [.insert 5 6, .insert 1000 7, .find 5] = .ok (t, as) ∧
    StableOvSpec (grpTable grpEx (.xorshift 64) (mapOverflow ovEx)) 11 (OvValid ovEx (fun v => v % 2 ^ 13) (.xorshift 64) 64 11) t := by
  obtain ⟨t, ht⟩ := C50_group_map_overflow (gc := grpEx) grpExOK ovEx_good ovEx_fits_grp [.insert 5 6, .insert 1000 7, .find 5] (by decide +kernel)
  exact ⟨t, _, ht, C122_group_overflow_stable grpExOK ovEx_good ovEx_fits_grp (by decide +kernel) ht⟩

/-- `reserve` is different, even if the number of buckets stays the same: it moves key 816 from the overflow table to bucket 24, which has had
room since key 51 was erased.  (Without overflow table such a `reserve` moves nothing, C91.) -/
theorem C122_reserve_moves : ¬ ∀ (ops : List MapOp) (t t' : Tab (SepStore PlainB PlainB) MapOv) (as : List Ans) (x k : Nat) (n : Nav),
    (∀ op ∈ ops, OvValid ovEx (fun v => v % 2 ^ 32) (.xorshift 16) 16 10 op) →
    Tab.run (sepMapOv exCfg (.xorshift 16) ovEx) (Tab.new (sepMapOv exCfg (.xorshift 16) ovEx) 10 20) ops = .ok (t, as) →
    x ≤ t.bucketCount → t.bucketCount < 2 * x → t.reserve (sepMapOv exCfg (.xorshift 16) ovEx) x = .ok t' → t'.bucketCount = t.bucketCount →
    k < 2 ^ 10 → t.find (sepMapOv exCfg (.xorshift 16) ovEx) k = .ok n → t'.find (sepMapOv exCfg (.xorshift 16) ovEx) k = .ok n := by
  intro hall
  obtain ⟨t, t', as, as', h1, h2, h3, h4, h5, h6⟩ := navTraceOv_spec (show navTraceOv (sepMapOv exCfg (.xorshift 16) ovEx) 10 20 ovExOps
    [.reserve 32] 816 = some (⟨32, 11⟩, ⟨24, 2⟩, 32, 32) by decide +kernel)
  obtain ⟨⟨t1, a⟩, g1, h2⟩ := bind_eq_ok h2
  obtain ⟨⟨t2, as2⟩, g2, h2⟩ := bind_eq_ok h2
  cases h2
  cases g2
  obtain ⟨t3, g3, g1⟩ := bind_eq_ok g1
  cases g1
  have := hall ovExOps t t' as 32 816 _ ovExOps_valid h1 (by omega) (by omega) g3 (by omega) (by decide) h3
  rw [h4] at this
  cases this

end SC
