import Verif.Sep.DebugTable
import Verif.Table.InsertFail
/-! # Histories of tables that demand values of at most `value_width()` bits -/
namespace SC

variable {S O : Type} {g : Cfg S O} {P : Par S O} {tr : Nat → Nat → Nat}

/-- what is known after a history -/
theorem fit_sem (L : Laws g P) (hg : P.grow < 65) (h1 : P.norm = fitNorm tr) (h2 : P.normO = fitNormO tr P.vw) (h3 : P.one = true)
    {ops : List MapOp} (hops : ∀ op ∈ ops, ValidOp P.kw P.lo P.hi (fun v => v < 2 ^ P.vw) op) :
    ∃ t, Tab.run g (Tab.new g P.kw P.vw) ops = .ok (t, FMap.empty.run (tr P.vw) ops) ∧
      Sem g P t (FMap.empty.after (tr P.vw) ops) := by
  have hv : ∀ v, v < 2 ^ P.vw → P.normO v = P.norm P.vw v := by intro v hv; rw [h1, h2]; exact fit_iff.mpr hv
  obtain ⟨t', l, a1, a2, a3⟩ := Tab.run_new L hg ops (fun op hop =>
    ValidOp.opOK (vals := fun v => v < 2 ^ P.vw) L.hi_lt L.lo_pos hv (hv 0 (Nat.two_pow_pos _)) (hops op hop) (.inr h3))
  rw [h1] at a1 a3
  have e := FMap.run_congr (f := fitNorm tr P.vw) (g := tr P.vw) (fit_eq (Nat.two_pow_pos _)) (fun v hv => fit_eq hv) ops FMap.empty hops
  refine ⟨t', ?_, l, a2, ?_⟩
  · rw [← e.1]; exact a1
  · rw [← e.2]; exact a3

/-- traversals after a history -/
theorem fit_iteration (L : Laws g P) (hno : NoOverflow P) {t : Tab S O} {m : FMap} (h : Sem g P t m) :
    ForwardSpec g P.kw t ∧ NavSpec g P.kw t ∧ SizeSpec g P.kw t ∧
      (t.size ≠ 0 → ∃ l t', t.pairs g = .ok l ∧ t.pairsBack g = .ok l.reverse ∧
        t.drainAll g = .ok (t', l.reverse) ∧ t'.size = 0) := by
  refine ⟨fact_forward L hno h, fact_nav L hno h, fact_size L hno h, fun hne => ?_⟩
  obtain ⟨l, a1, a2⟩ := fact_backward L hno h hne
  obtain ⟨l', t', b1, b2, b3⟩ := fact_drain L hno h hne
  rw [a1] at b1
  cases b1
  exact ⟨l, t', a1, a2, b2, b3.size⟩

end SC
