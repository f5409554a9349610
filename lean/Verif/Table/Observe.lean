import Verif.Table.Facts
import Verif.Table.Kinds
import Verif.Overflow.Dummy
/-!
# All observations at once

`compact_chaining_map` and `group_chaining_table` have the interface of `separate_chaining_map`.  The propositions here
collect what a user can observe, for any of the tables without overflow table.
-/
namespace SC
variable {S : Type}

/-- `t` is the table after the calls `ops` on a new table -/
def After (g : Cfg S Unit) (kw vw : Nat) (ops : List MapOp) (t : Tab S Unit) : Prop :=
  ∃ as, Tab.run g (Tab.new g kw vw) ops = .ok (t, as)

/-- What every call does, seen through `find`, `size()` and forward iteration.  `tr v` is what is left of a value when it
is stored; the number of buckets passed to `reserve` is from `2^lo` to `2^hi`. -/
structure Observed (g : Cfg S Unit) (tr : Nat → Nat) (lo hi kw vw : Nat) (m : FMap) (t : Tab S Unit) : Prop where
  /-- `find(k)` gives what the finite map gives -/
  find : ∀ k < 2 ^ kw, t.lookup g k = .ok ((m.get k).map (fun v => (k, v)))
  insert : ∀ k v, k < 2 ^ kw → InsertSpec g tr kw t k v
  assign : ∀ k v, k < 2 ^ kw → AssignSpec g tr kw t k v
  erase : ∀ k, k < 2 ^ kw → EraseSpec g kw t k
  size : t.size = m.size ∧ SizeSpec g kw t
  widths : t.kw = kw ∧ t.vw = vw
  /-- `reserve(n)` keeps the contents -/
  reserve : ∀ n, ValidOp kw lo hi (fun _ => True) (.reserve n) → ∃ t', t.reserve g n = .ok t' ∧ SameContents g kw t t'
  /-- `shrink_to_fit()` keeps the contents -/
  shrink : ∃ t', t.shrink g = .ok t' ∧ SameContents g kw t t'
  clear : ∀ ops, (∀ op ∈ ops, ValidOp kw lo hi (fun _ => True) op) → ClearSpec g tr kw t ops
  forward : ForwardSpec g kw t
  navigator : NavSpec g kw t

/-- Iterating from `rbegin_nav()` on, without and with erasing. -/
structure ObservedBack (g : Cfg S Unit) (kw : Nat) (t : Tab S Unit) : Prop where
  backward : t.size ≠ 0 → ∃ l, t.pairs g = .ok l ∧ t.pairsBack g = .ok l.reverse
  drain : t.size ≠ 0 → ∃ l t', t.pairs g = .ok l ∧ t.drainAll g = .ok (t', l.reverse) ∧ t'.size = 0 ∧
    ∀ k < 2 ^ kw, t'.lookup g k = .ok none

/-- the correctness argument works for these parameters -/
structure Covered (g : Cfg S Unit) (tr : Nat → Nat) (lo hi kw vw : Nat) (P : Par S Unit) : Prop where
  laws : Laws g P
  grow65 : P.grow < 65
  noOverflow : NoOverflow P
  kw : P.kw = kw
  vw : P.vw = vw
  norm : P.norm P.vw = tr
  normO : P.normO = tr
  lo : P.lo = lo
  hi : P.hi = hi
  one : P.one = true := by rfl

variable {g : Cfg S Unit} {tr : Nat → Nat} {lo hi kw vw : Nat} {P : Par S Unit}

theorem Covered.normA (h : Covered g tr lo hi kw vw P) (x : Nat) : P.normO x = P.norm P.vw x := by
  rw [h.norm, h.normO]

theorem Covered.opOK (h : Covered g tr lo hi kw vw P) {op : MapOp} (hop : ValidOp kw lo hi (fun _ => True) op) : OpOK P op := by
  refine ValidOp.opOK h.laws.hi_lt h.laws.lo_pos (vals := fun _ => True) (fun v _ => ?_) ?_ ?_ (.inr h.one)
  · rw [h.norm, h.normO]
  · rw [h.norm, h.normO]
  · rw [h.kw, h.lo, h.hi]; exact hop

/-- every history runs and answers like a finite map -/
theorem Covered.run (h : Covered g tr lo hi kw vw P) (ops : List MapOp)
    (hops : ∀ op ∈ ops, ValidOp kw lo hi (fun _ => True) op) :
    ∃ t, Tab.run g (Tab.new g kw vw) ops = .ok (t, FMap.empty.run tr ops) := by
  obtain ⟨t', l, h1, h2, h3⟩ := Tab.run_new h.laws h.grow65 ops (fun op hop => h.opOK (hops op hop))
  rw [h.norm, h.kw, h.vw] at h1
  exact ⟨t', h1⟩

theorem Covered.sem (h : Covered g tr lo hi kw vw P) {ops : List MapOp}
    (hops : ∀ op ∈ ops, ValidOp kw lo hi (fun _ => True) op) {t : Tab S Unit} (ht : After g kw vw ops t) :
    Sem g P t (FMap.empty.after tr ops) := by
  obtain ⟨t', l, h1, h2, h3⟩ := Tab.run_new h.laws h.grow65 ops (fun op hop => h.opOK (hops op hop))
  rw [h.norm, h.kw, h.vw] at h1
  rw [h.norm] at h3
  obtain ⟨as, ht⟩ := ht
  rw [ht] at h1
  have : t = t' := congrArg Prod.fst (Except.ok.inj h1)
  subst this
  exact ⟨l, h2, h3⟩

theorem Covered.observed (h : Covered g tr lo hi kw vw P) {t : Tab S Unit} {m : FMap} (hs : Sem g P t m) :
    Observed g tr lo hi kw vw m t := by
  have L := h.laws
  have e := h.kw
  have en := h.norm
  have eo := h.normO
  have ok : ∀ {op}, ValidOp kw lo hi (fun _ => True) op → OpOK P op := h.opOK
  constructor
  · intro k hk; exact hs.lookup L (by rw [e]; exact hk)
  · intro k v hk
    have hop := ok (op := .insert k v) ⟨hk, trivial⟩
    rw [← en, ← e]
    exact fact_insert L h.grow65 hs hop.1 hop.2
  · intro k v hk
    have hop := ok (op := .assign k v) ⟨hk, trivial⟩
    rw [← en, ← e]
    exact fact_assign L h.grow65 hs hop.1 hop.2.1 hop.2.2
  · intro k hk
    rw [← e]; exact fact_erase L hs (by rw [e]; exact hk)
  · refine ⟨hs.size, ?_⟩
    rw [← e]; exact fact_size L h.noOverflow hs
  · rw [← e, ← h.vw]; exact hs.widths
  · intro n hn
    obtain ⟨t', h1, h2⟩ := fact_reserve L h.grow65 hs (ok hn)
    refine ⟨t', h1, ?_⟩
    rw [← e]; exact fact_same L L hs h2 rfl rfl
  · obtain ⟨t', h1, h2⟩ := fact_shrink L hs
    refine ⟨t', h1, ?_⟩
    rw [← e]; exact fact_same L L hs h2 rfl rfl
  · intro ops hops
    rw [← en, ← e]
    exact fact_clear L h.grow65 hs ops (fun op hop => ok (hops op hop))
  · rw [← e]; exact fact_forward L h.noOverflow hs
  · rw [← e]; exact fact_nav L h.noOverflow hs

theorem Covered.observedBack (h : Covered g tr lo hi kw vw P) {t : Tab S Unit} {m : FMap} (hs : Sem g P t m) :
    ObservedBack g kw t := by
  constructor
  · exact fact_backward h.laws h.noOverflow hs
  · intro hne
    obtain ⟨l, t', h1, h2, h3⟩ := fact_drain h.laws h.noOverflow hs hne
    refine ⟨l, t', h1, h2, h3.size, ?_⟩
    intro k hk
    rw [h3.lookup h.laws (by rw [h.kw]; exact hk)]; rfl

end SC
