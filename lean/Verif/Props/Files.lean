import Verif.Table.Files
import Verif.Props.Several
import Verif.Props.Serial
import Verif.Props.GroupSerial
/-!
# Programs with several tables and files: C118
-/
namespace SC

/-- the class `separate_chaining_table`; also for tables that were read from files, which may have less memory than their resize strategy would give them -/
theorem classy_sep_read {KB VB : Type} (p : SepCfg KB VB) (hk : HashKind) (tr : Nat → Nat → Nat) (W : Nat) :
    Classy (sepMap p hk) tr (SepOK p hk tr W) (SepValid hk W)
      (fun kw vw t m => ∃ P, SepParOK p hk tr W kw vw false P ∧ Sem (sepMap p hk) P t m) where
  new kw vw h := by
    obtain ⟨P, hP⟩ := h.par false
    exact ⟨P, hP, SepReach.new.sem hP⟩
  step kw vw t m op _ := by
    rintro ⟨P, hP, hs⟩ hop
    obtain ⟨t', h1, h2⟩ := hs.step hP.laws hP.grow65 op (hP.opOK hop)
    have e3 : P.norm P.vw = tr vw := by obtain ⟨_, _, rfl⟩ := hP.par; rfl
    rw [e3] at h1 h2
    exact ⟨t', h1, P, hP, h2⟩
  kw kw vw t m _ := by
    rintro ⟨P, hP, hs⟩
    rw [hs.widths.1]
    obtain ⟨_, _, rfl⟩ := hP.par; rfl

/-- `serialize` and `deserialize` of `separate_chaining_table` -/
def sepFiler {KB VB : Type} (p : SepCfg KB VB) (hk : HashKind) : Filer (SepStore KB VB) := { ser := p.serialize hk, des := p.deserialize hk }

/-- `serialize` and `deserialize` of `group_chaining_table` -/
def grpFiler (c : GrpCfg) (hk : HashKind) : Filer GrpStore := { ser := grpSerialize c hk, des := grpDeserialize c hk }

theorem filed_sep {KB VB : Type} (p : SepCfg KB VB) (hk : HashKind) (tr : Nat → Nat → Nat) (W : Nat) :
    Filed (sepFiler p hk) (SepOK p hk tr W) (fun kw vw t m => ∃ P, SepParOK p hk tr W kw vw false P ∧ Sem (sepMap p hk) P t m) := by
  rintro kw vw t m - ⟨P, hP, hs⟩ hsz
  have hsz' : t.size < 2 ^ 64 := by rw [hs.size]; exact hsz
  obtain ⟨l, hi, ha⟩ := hs
  obtain ⟨bytes, g1, g2⟩ := serialize_ok hP hi hsz'
  refine ⟨bytes, g1, fun t0 rest => ?_⟩
  obtain ⟨t', f1, f2, _⟩ := g2 t0 rest
  exact ⟨t', f1, P, hP, l, f2, ha⟩

/-- **C118** for `separate_chaining_table`: every program that constructs tables of any widths, calls their functions, swaps and moves them, writes them
to streams, one after the other, and reads them back into any objects - of other widths, with other contents, or moved from - gets the answers of finite
maps and queues of finite maps; and a stream from which everything was read is at its end. -/
theorem C118_separate_files {KB VB : Type} (p : SepCfg KB VB) (hk : HashKind) (tr : Nat → Nat → Nat) (W : Nat) (prog : List FCmd)
    (hv : Disk.empty.Valid tr (SepOK p hk tr W) (SepValid hk W) prog) :
    ∃ w, TWorld.run (sepMap p hk) (sepFiler p hk) false TWorld.empty prog = .ok (w, Disk.empty.run tr prog) ∧
      (∀ f, (Disk.empty.after tr prog).files f = [] → w.files f = []) := by
  obtain ⟨w, h1, h2⟩ := TWorld.run_ok (viaSwap := false) (classy_sep_read p hk tr W) (filed_sep p hk tr W) prog WorldHolds.empty hv
  refine ⟨w, h1, fun f hf => ?_⟩
  have := h2.files f
  rw [hf] at this
  exact this.done

/-- calls on group tables that were read from a file: without `erase`, unless reads behind the end of an array are harmless (C58) -/
def GrpFileArgs (c : GrpCfg) (hk : HashKind) (kw : Nat) (op : MapOp) : Prop := GrpValid hk kw op ∧ (c.strict = false ∨ op.keeps = true)

instance (c : GrpCfg) (hk : HashKind) (kw : Nat) (op : MapOp) : Decidable (GrpFileArgs c hk kw op) := by
  unfold GrpFileArgs; infer_instance

theorem classy_grp_read (c : GrpCfg) (hk : HashKind) :
    Classy (grpMap c hk) (fun vw v => v % 2 ^ vw) (GrpOK hk) (GrpFileArgs c hk) (fun kw vw t m => Sem (grpMapE c c.flat hk) (grpPar false hk kw vw) t m) where
  new kw vw h := GrpReach.new.sem h
  step kw vw t m op h := by
    rintro hs ⟨hop, hor⟩
    have hC := h.coveredE (c := c) (e := c.flat) (sp := false) (by simp)
    obtain ⟨t', h1, h2⟩ := hs.step hC.laws hC.grow65 op (hC.opOK hop)
    refine ⟨t', ?_, h2⟩
    rcases hor with hst | hks
    · rw [grpMapE_self hst] at h1
      exact h1
    · rw [grpMapE, step_withErase t hks] at h1
      exact h1
  kw kw vw t m _ := fun hs => hs.widths.1

theorem filed_grp (c : GrpCfg) (hk : HashKind) :
    Filed (grpFiler c hk) (GrpOK hk) (fun kw vw t m => Sem (grpMapE c c.flat hk) (grpPar false hk kw vw) t m) := by
  intro kw vw t m h hs hsz
  have hC := h.coveredE (c := c) (e := c.flat) (sp := false) (by simp)
  have hsz' : t.size < 2 ^ 64 := by rw [hs.size]; exact hsz
  obtain ⟨l, hi, ha⟩ := hs
  obtain ⟨bytes, g1, g2⟩ := grpSerialize_ok hC.laws (Inv_withErase.mp hi) hsz'
  refine ⟨bytes, g1, fun t0 rest => ?_⟩
  obtain ⟨t', f1, f2, _⟩ := g2 t0 rest
  exact ⟨t', f1, l, Inv_withErase.mpr f2, ha⟩

/-- **C118** for `group_chaining_table` (it has no move constructor, so programs that use it do not compile) -/
theorem C118_group_files (c : GrpCfg) (hk : HashKind) (prog : List FCmd)
    (hv : Disk.empty.Valid (fun vw v => v % 2 ^ vw) (GrpOK hk) (GrpFileArgs c hk) prog) :
    ∃ w, TWorld.run (grpMap c hk) (grpFiler c hk) true TWorld.empty prog = .ok (w, Disk.empty.run (fun vw v => v % 2 ^ vw) prog) ∧
      (∀ f, (Disk.empty.after (fun vw v => v % 2 ^ vw) prog).files f = [] → w.files f = []) := by
  obtain ⟨w, h1, h2⟩ := TWorld.run_ok (viaSwap := true) (classy_grp_read c hk) (filed_grp c hk) prog WorldHolds.empty hv
  refine ⟨w, h1, fun f hf => ?_⟩
  have := h2.files f
  rw [hf] at this
  exact this.done

/-- Two tables of different widths are written to one stream, an updated one is written again, all are read back: into a table that was moved from, into one
with other widths, and into one with contents. -/
def filesEx : List FCmd :=
  [.tab (.create 0 10 20), .tab (.create 1 12 7), .tab (.call 0 (.insert 11 5)), .tab (.call 1 (.insert 2900 6)), .tab (.call 1 (.insert 8 9)), .write 0 3, .write 1 3,
   .tab (.call 0 (.insert 12 6)), .write 0 3, .tab (.create 2 9 3), .tab (.moveAssign 2 1), .read 1 3, .tab (.call 1 (.find 11)), .tab (.call 1 .size),
   .read 0 3, .tab (.call 0 (.find 2900)), .tab (.call 0 (.find 11)), .tab (.call 0 .size), .read 2 3, .tab (.call 2 (.find 12)), .tab (.call 2 (.insert 13 1)),
   .write 2 5, .tab (.swap 0 2), .tab (.call 0 .size), .tab (.call 1 .size)]

theorem filesEx_valid {widths : Nat → Nat → Prop} {args : Nat → MapOp → Prop} (tr : Nat → Nat → Nat)
    (h1 : widths 10 20) (h2 : widths 12 7) (h3 : widths 9 3) (a : ∀ kw k v, k < 2 ^ kw → args kw (.insert k v)) (b : ∀ kw k, k < 2 ^ kw → args kw (.find k))
    (s : ∀ kw, args kw .size) : Disk.empty.Valid tr widths args filesEx := by
  refine ⟨h1, h2, ⟨_, _, _, rfl, a _ _ _ ?_⟩, ⟨_, _, _, rfl, a _ _ _ ?_⟩, ⟨_, _, _, rfl, a _ _ _ ?_⟩, ⟨_, _, _, rfl, ?_⟩, ⟨_, _, _, rfl, ?_⟩, ⟨_, _, _, rfl, a _ _ _ ?_⟩,
    ⟨_, _, _, rfl, ?_⟩, h3, trivial, ⟨rfl, fun h => nomatch h⟩, ⟨_, _, _, rfl, b _ _ ?_⟩, ⟨_, _, _, rfl, s _⟩, ⟨rfl, fun h => nomatch h⟩, ⟨_, _, _, rfl, b _ _ ?_⟩,
    ⟨_, _, _, rfl, b _ _ ?_⟩, ⟨_, _, _, rfl, s _⟩, ⟨rfl, fun h => nomatch h⟩, ⟨_, _, _, rfl, b _ _ ?_⟩, ⟨_, _, _, rfl, a _ _ _ ?_⟩, ⟨_, _, _, rfl, ?_⟩, trivial,
    ⟨_, _, _, rfl, s _⟩, ⟨_, _, _, rfl, s _⟩, trivial⟩ <;>
    first | decide | exact (show 1 < 2 ^ 64 by decide) | exact (show 2 < 2 ^ 64 by decide) | exact (show 3 < 2 ^ 64 by decide)

/-- the answers -/
theorem filesEx_run : Disk.empty.run (fun vw v => v % 2 ^ vw) filesEx =
    [.pair 11 5, .pair 2900 6, .pair 8 9, .pair 12 6, .pair 11 5, .num 1, .pair 2900 6, .absent, .num 2, .pair 12 6, .pair 13 1, .num 3, .num 1] := by decide +kernel

example : ∃ w, TWorld.run (sepMap exCfg (.xorshift 16)) (sepFiler exCfg (.xorshift 16)) false TWorld.empty filesEx =
      .ok (w, Disk.empty.run (fun _ v => v % 2 ^ 32) filesEx) ∧
    (∀ f, (Disk.empty.after (fun _ v => v % 2 ^ 32) filesEx).files f = [] → w.files f = []) :=
  C118_separate_files exCfg (.xorshift 16) _ 16 _ (filesEx_valid _ (exCfg_ok _ (by omega) (by omega) (by omega) (by omega))
    (exCfg_ok _ (by omega) (by omega) (by omega) (by omega)) (exCfg_ok _ (by omega) (by omega) (by omega) (by omega))
    (fun kw k v h => ⟨h, trivial⟩) (fun kw k h => h) (fun kw => trivial))

example : ∃ w, TWorld.run (grpMap grpEx (.xorshift 64)) (grpFiler grpEx (.xorshift 64)) true TWorld.empty filesEx = .ok (w,
      [.pair 11 5, .pair 2900 6, .pair 8 9, .pair 12 6, .pair 11 5, .num 1, .pair 2900 6, .absent, .num 2, .pair 12 6, .pair 13 1, .num 3, .num 1]) ∧
    (∀ f, (Disk.empty.after (fun vw v => v % 2 ^ vw) filesEx).files f = [] → w.files f = []) := by
  have h : ∀ kw vw, 3 ≤ kw → kw ≤ 64 → 1 ≤ vw → vw ≤ 64 → GrpOK (.xorshift 64) kw vw := fun kw vw h1 h2 h3 h4 =>
    ⟨by simp only [HashKind.Supports]; omega, h3, h4⟩
  rw [← filesEx_run]
  exact C118_group_files _ _ _ (filesEx_valid _ (h _ _ (by omega) (by omega) (by omega) (by omega)) (h _ _ (by omega) (by omega) (by omega) (by omega))
    (h _ _ (by omega) (by omega) (by omega) (by omega)) (fun kw k v h => ⟨⟨h, trivial⟩, .inr rfl⟩) (fun kw k h => ⟨h, .inr rfl⟩) (fun kw => ⟨trivial, .inr rfl⟩))

/-- only the table that was written to stream 5 is left -/
example : (Disk.empty.after (fun vw v => v % 2 ^ vw) filesEx).files 3 = [] ∧
    ((Disk.empty.after (fun vw v => v % 2 ^ vw) filesEx).files 5).map (fun x => (x.1, x.2.1, x.2.2.size)) = [(10, 20, 3)] := by decide +kernel

end SC
