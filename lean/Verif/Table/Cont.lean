import Verif.Table.Ops
import Verif.Hash.MappingLemmas
/-!
# Contents of a table, independently of how the buckets are stored
-/
namespace SC

/-- the key a quotient in a bucket stands for -/
def invKey (H : HashMapping) (tb b q : Nat) : Nat :=
  match H.invMap q b tb with
  | .ok k => k
  | .error _ => 0

/-- the pairs stored in one bucket -/
def bEnts (H : HashMapping) (tb b : Nat) (xs : List (Nat × Nat)) : List (Nat × Nat) :=
  xs.map (fun e => (invKey H tb b e.1, e.2))

/-- the pairs stored in the buckets, in order -/
def stored (H : HashMapping) (tb : Nat) (c : Cont) : List (Nat × Nat) :=
  (List.range (2 ^ tb)).flatMap (fun b => bEnts H tb b (c b))

/-- all pairs: buckets and overflow table -/
def ents (H : HashMapping) (tb : Nat) (c : Cont) (o : List (Nat × Nat × Nat)) : List (Nat × Nat) :=
  stored H tb c ++ o.map (fun e => e.2)

/-- The contents make sense with respect to the hash function. -/
structure COK (H : HashMapping) (kw tb : Nat) (c : Cont) (o : List (Nat × Nat × Nat)) : Prop where
  src : ∀ b < 2 ^ tb, ∀ e ∈ c b, ∃ k < 2 ^ kw, H.map k tb = .ok (e.1, b)
  nodup : ∀ b < 2 ^ tb, ((c b).map Prod.fst).Nodup
  osrc : ∀ e ∈ o, e.2.1 < 2 ^ kw ∧ ∃ q b, H.map e.2.1 tb = .ok (q, b) ∧ q ∉ (c b).map Prod.fst
  okeys : (o.map (fun e => e.2.1)).Nodup

section lists
variable {α : Type}

theorem flatMap_upd_of_le (f : Nat → List α) {n b : Nat} (x : List α) (h : n ≤ b) :
    (List.range n).flatMap (upd f b x) = (List.range n).flatMap f := by
  induction n with
  | zero => rfl
  | succ n ih =>
    rw [List.range_succ, List.flatMap_append, List.flatMap_append, ih (by omega)]
    simp [upd_other f x (show n ≠ b by omega)]

theorem flatMap_upd_perm (f : Nat → List α) {n b : Nat} (x : List α) (h : b < n) :
    ((List.range n).flatMap (upd f b x)).Perm (x ++ (List.range n).flatMap (upd f b [])) := by
  induction n with
  | zero => omega
  | succ n ih =>
    rw [List.range_succ, List.flatMap_append, List.flatMap_append]
    by_cases hb : b = n
    · subst hb
      rw [flatMap_upd_of_le f x (Nat.le_refl b), flatMap_upd_of_le f [] (Nat.le_refl b)]
      simpa using List.perm_append_comm
    · have := ih (by omega)
      simp only [List.flatMap_cons, List.flatMap_nil, List.append_nil, upd_other f _ (show n ≠ b by omega)]
      rw [← List.append_assoc]
      exact this.append_right _

theorem getElem_cons_eraseIdx {l : List α} {i : Nat} (h : i < l.length) : (l[i] :: l.eraseIdx i).Perm l := by
  rw [List.eraseIdx_eq_take_drop_succ]
  have e : l = l.take i ++ l[i] :: l.drop (i + 1) := by
    rw [← List.drop_eq_getElem_cons h, List.take_append_drop]
  conv => rhs; rw [e]
  exact List.perm_middle.symm

end lists

theorem upd_self {α : Type} (f : Nat → α) (i : Nat) : upd f i (f i) = f := by
  funext j; by_cases h : j = i
  · rw [h]; simp
  · simp [upd, h]

theorem upd_upd {α : Type} (f : Nat → α) (i : Nat) (x y : α) : upd (upd f i x) i y = upd f i y := by
  funext j; by_cases h : j = i <;> simp [upd, h]

theorem stored_upd (H : HashMapping) (tb : Nat) (c : Cont) (b : Nat) (xs : List (Nat × Nat)) :
    stored H tb (upd c b xs) =
      (List.range (2 ^ tb)).flatMap (upd (fun b => bEnts H tb b (c b)) b (bEnts H tb b xs)) := by
  unfold stored
  congr 1
  funext j
  by_cases h : j = b
  · subst h; simp
  · simp [upd, h]

theorem ents_upd {H : HashMapping} {tb b : Nat} (c : Cont) (o : List (Nat × Nat × Nat)) (xs : List (Nat × Nat))
    (hb : b < 2 ^ tb) :
    (ents H tb (upd c b xs) o).Perm (bEnts H tb b xs ++ ents H tb (upd c b []) o) := by
  unfold ents
  rw [← List.append_assoc]
  apply List.Perm.append_right
  rw [stored_upd, stored_upd]
  exact flatMap_upd_perm _ _ hb

theorem ents_split {H : HashMapping} {tb b : Nat} (c : Cont) (o : List (Nat × Nat × Nat))
    (hb : b < 2 ^ tb) :
    (ents H tb c o).Perm (bEnts H tb b (c b) ++ ents H tb (upd c b []) o) := by
  have := ents_upd (H := H) c o (c b) hb
  rwa [upd_self] at this

/-- appending to a bucket -/
theorem ents_push {H : HashMapping} {tb b q v k : Nat} (c : Cont) (o : List (Nat × Nat × Nat))
    (hb : b < 2 ^ tb) (hk : invKey H tb b q = k) :
    (ents H tb (upd c b (c b ++ [(q, v)])) o).Perm ((k, v) :: ents H tb c o) := by
  refine (ents_upd c o _ hb).trans ?_
  refine List.Perm.trans ?_ ((ents_split c o hb).symm.cons _)
  simp only [bEnts, List.map_append, List.map_cons, List.map_nil, hk, List.append_assoc]
  exact List.perm_middle

/-- removing from a bucket -/
theorem ents_erase {H : HashMapping} {tb b i k : Nat} (c : Cont) (o : List (Nat × Nat × Nat))
    (hb : b < 2 ^ tb) (hi : i < (c b).length) (hk : invKey H tb b (c b)[i].1 = k) :
    ((k, (c b)[i].2) :: ents H tb (upd c b ((c b).eraseIdx i)) o).Perm (ents H tb c o) := by
  refine ((ents_upd c o _ hb).cons _).trans (List.Perm.trans ?_ (ents_split c o hb).symm)
  rw [← List.cons_append]
  apply List.Perm.append_right
  have : ((c b)[i] :: (c b).eraseIdx i).Perm (c b) := getElem_cons_eraseIdx hi
  have h2 := this.map (fun e => (invKey H tb b e.1, e.2))
  simpa [bEnts, hk] using h2

/-- overwriting a value in a bucket: the rest stays -/
theorem ents_set {H : HashMapping} {tb b i k v : Nat} (c : Cont) (o : List (Nat × Nat × Nat))
    (hb : b < 2 ^ tb) (hi : i < (c b).length) (hk : invKey H tb b (c b)[i].1 = k) :
    ∃ R, (ents H tb c o).Perm ((k, (c b)[i].2) :: R) ∧
      (ents H tb (upd c b ((c b).set i ((c b)[i].1, v))) o).Perm ((k, v) :: R) := by
  refine ⟨ents H tb (upd c b ((c b).eraseIdx i)) o, (ents_erase c o hb hi hk).symm, ?_⟩
  refine (ents_upd c o _ hb).trans (List.Perm.trans ?_ ((ents_upd c o _ hb).cons _).symm)
  rw [← List.cons_append]
  apply List.Perm.append_right
  have e := getElem_cons_eraseIdx (l := (c b).set i ((c b)[i].1, v)) (i := i) (by simpa using hi)
  rw [List.eraseIdx_set_eq] at e
  have h2 := e.map (fun e => (invKey H tb b e.1, e.2))
  simp only [List.getElem_set_self, List.map_cons, hk] at h2
  exact h2.symm

/-! ## keys -/

theorem invKey_of_map {H : HashMapping} {kw tb k q b : Nat} (hH : LawfulMapping H kw tb) (hk : k < 2 ^ kw)
    (h : H.map k tb = .ok (q, b)) : invKey H tb b q = k ∧ b < 2 ^ tb ∧ q < 2 ^ H.remainderWidth tb ∧
      H.invMap q b tb = .ok k := by
  obtain ⟨q', b', h1, h2, h3, h4⟩ := hH.map_ok k hk
  rw [h1] at h
  simp only [Except.ok.injEq, Prod.mk.injEq] at h
  obtain ⟨rfl, rfl⟩ := h
  exact ⟨by simp [invKey, h4], h2, h3, h4⟩

theorem map_of_mem {H : HashMapping} {kw tb b : Nat} {c : Cont} {o : List (Nat × Nat × Nat)}
    (hH : LawfulMapping H kw tb) (hc : COK H kw tb c o) (hb : b < 2 ^ tb) {e : Nat × Nat} (he : e ∈ c b) :
    invKey H tb b e.1 < 2 ^ kw ∧ H.map (invKey H tb b e.1) tb = .ok (e.1, b) ∧
      H.invMap e.1 b tb = .ok (invKey H tb b e.1) ∧ e.1 < 2 ^ H.remainderWidth tb := by
  obtain ⟨k, hk, hm⟩ := hc.src b hb e he
  obtain ⟨h1, _, h3, h4⟩ := invKey_of_map hH hk hm
  rw [h1]; exact ⟨hk, hm, h4, h3⟩

theorem mem_stored {H : HashMapping} {tb : Nat} {c : Cont} {x : Nat × Nat} :
    x ∈ stored H tb c ↔ ∃ b < 2 ^ tb, ∃ e ∈ c b, (invKey H tb b e.1, e.2) = x := by
  simp [stored, bEnts]

theorem mem_ents {H : HashMapping} {kw tb k v q b : Nat} {c : Cont} {o : List (Nat × Nat × Nat)}
    (hH : LawfulMapping H kw tb) (hc : COK H kw tb c o) (hk : k < 2 ^ kw) (hm : H.map k tb = .ok (q, b)) :
    (k, v) ∈ ents H tb c o ↔ (q, v) ∈ c b ∨ ∃ p, (p, k, v) ∈ o := by
  obtain ⟨h1, h2, _, _⟩ := invKey_of_map hH hk hm
  simp only [ents, List.mem_append, mem_stored, List.mem_map]
  constructor
  · rintro (⟨b', hb', e, he, h⟩ | ⟨e, he, h⟩)
    · simp only [Prod.mk.injEq] at h
      obtain ⟨_, h4, _⟩ := map_of_mem hH hc hb' he
      rw [h.1, hm] at h4
      simp only [Except.ok.injEq, Prod.mk.injEq] at h4
      left; rw [h4.2, h4.1, ← h.2]; exact he
    · right; exact ⟨e.1, by rw [← h]; exact he⟩
  · rintro (h | ⟨p, h⟩)
    · left; exact ⟨b, h2, _, h, by rw [h1]⟩
    · right; exact ⟨_, h, rfl⟩

theorem key_lt_of_mem {H : HashMapping} {kw tb k v : Nat} {c : Cont} {o : List (Nat × Nat × Nat)}
    (hH : LawfulMapping H kw tb) (hc : COK H kw tb c o) (h : (k, v) ∈ ents H tb c o) : k < 2 ^ kw := by
  simp only [ents, List.mem_append, mem_stored, List.mem_map] at h
  rcases h with ⟨b', hb', e, he, h⟩ | ⟨e, he, h⟩
  · have := (map_of_mem hH hc hb' he).1
    simp only [Prod.mk.injEq] at h; omega
  · have := (hc.osrc e he).1
    rw [h] at this; exact this

theorem nodup_flatMap_keys {n : Nat} {f : Nat → List (Nat × Nat)} (h1 : ∀ b < n, ((f b).map Prod.fst).Nodup)
    (h2 : ∀ b < n, ∀ b' < n, b ≠ b' → ∀ x ∈ f b, ∀ y ∈ f b', x.1 ≠ y.1) :
    (((List.range n).flatMap f).map Prod.fst).Nodup := by
  induction n with
  | zero => simp
  | succ n ih =>
    rw [List.range_succ, List.flatMap_append, List.map_append, List.nodup_append]
    refine ⟨ih (fun b hb => h1 b (by omega)) (fun b hb b' hb' => h2 b (by omega) b' (by omega)),
      by simpa using h1 n (by omega), ?_⟩
    intro a ha a' ha'
    simp only [List.mem_map, List.mem_flatMap, List.mem_range, List.mem_singleton] at ha ha'
    obtain ⟨x, ⟨b, hb, hx⟩, rfl⟩ := ha
    obtain ⟨y, ⟨b', rfl, hy⟩, rfl⟩ := ha'
    exact h2 b (by omega) b' (by omega) (by omega) x hx y hy

theorem ents_nodup {H : HashMapping} {kw tb : Nat} {c : Cont} {o : List (Nat × Nat × Nat)}
    (hH : LawfulMapping H kw tb) (hc : COK H kw tb c o) : ((ents H tb c o).map Prod.fst).Nodup := by
  unfold ents
  rw [List.map_append, List.nodup_append]
  refine ⟨?_, ?_, ?_⟩
  · apply nodup_flatMap_keys
    · intro b hb
      have h := hc.nodup b hb
      rw [bEnts, List.map_map]
      rw [List.nodup_iff_pairwise_ne, List.pairwise_map] at h ⊢
      refine List.Pairwise.imp_of_mem ?_ h
      intro x y hx hy hne he
      have h1 := (map_of_mem hH hc hb hx).2.1
      have h2 := (map_of_mem hH hc hb hy).2.1
      simp only [Function.comp_def] at he
      rw [he, h2] at h1
      simp only [Except.ok.injEq, Prod.mk.injEq] at h1
      exact hne h1.1.symm
    · intro b hb b' hb' hne x hx y hy he
      simp only [bEnts, List.mem_map] at hx hy
      obtain ⟨e, hem, rfl⟩ := hx
      obtain ⟨e', hem', rfl⟩ := hy
      have h1 := (map_of_mem hH hc hb hem).2.1
      have h2 := (map_of_mem hH hc hb' hem').2.1
      simp only at he
      rw [he, h2] at h1
      simp only [Except.ok.injEq, Prod.mk.injEq] at h1
      exact hne h1.2.symm
  · rw [List.map_map]; exact hc.okeys
  · intro a ha a' ha' he
    simp only [List.mem_map, mem_stored] at ha ha'
    obtain ⟨x, ⟨b, hb, e, hem, rfl⟩, rfl⟩ := ha
    obtain ⟨y, ⟨e', hem', rfl⟩, rfl⟩ := ha'
    have h1 := (map_of_mem hH hc hb hem).2.1
    obtain ⟨_, q, b', h2, h3⟩ := hc.osrc e' hem'
    simp only at he
    rw [he, h2] at h1
    simp only [Except.ok.injEq, Prod.mk.injEq] at h1
    obtain ⟨rfl, rfl⟩ := h1
    exact h3 (List.mem_map.mpr ⟨e, hem, rfl⟩)

/-! ## COK is preserved -/

theorem COK.nil {H : HashMapping} {kw tb : Nat} : COK H kw tb (fun _ => []) [] where
  src := by intro b _ e he; simp at he
  nodup := by intro b _; simp
  osrc := by intro e he; simp at he
  okeys := by simp

theorem COK.push {H : HashMapping} {kw tb k q b v : Nat} {c : Cont} {o : List (Nat × Nat × Nat)}
    (hc : COK H kw tb c o) (hk : k < 2 ^ kw) (hm : H.map k tb = .ok (q, b))
    (hH : LawfulMapping H kw tb)
    (hq : q ∉ (c b).map Prod.fst) (ho : ∀ e ∈ o, e.2.1 ≠ k) :
    COK H kw tb (upd c b (c b ++ [(q, v)])) o where
  src := by
    intro b' hb' e he
    by_cases h : b' = b
    · subst h
      rw [upd_same, List.mem_append, List.mem_singleton] at he
      rcases he with he | rfl
      · exact hc.src b' hb' e he
      · exact ⟨k, hk, hm⟩
    · rw [upd_other _ _ h] at he; exact hc.src b' hb' e he
  nodup := by
    intro b' hb'
    by_cases h : b' = b
    · subst h
      rw [upd_same, List.map_append, List.nodup_append]
      refine ⟨hc.nodup b' hb', by simp, ?_⟩
      intro a ha a' ha' he
      simp only [List.map_cons, List.map_nil, List.mem_singleton] at ha'
      rw [he, ha'] at ha; exact hq ha
    · rw [upd_other _ _ h]; exact hc.nodup b' hb'
  osrc := by
    intro e he
    obtain ⟨h1, q', b', h2, h3⟩ := hc.osrc e he
    refine ⟨h1, q', b', h2, ?_⟩
    by_cases h : b' = b
    · subst h
      rw [upd_same, List.map_append, List.mem_append]
      rintro (h4 | h4)
      · exact h3 h4
      · simp only [List.map_cons, List.map_nil, List.mem_singleton] at h4
        subst h4
        have e1 := (invKey_of_map hH h1 h2).1
        have e2 := (invKey_of_map hH hk hm).1
        exact ho e he (e1 ▸ e2)
    · rw [upd_other _ _ h]; exact h3
  okeys := hc.okeys

theorem COK.erase {H : HashMapping} {kw tb b i : Nat} {c : Cont} {o : List (Nat × Nat × Nat)}
    (hc : COK H kw tb c o) : COK H kw tb (upd c b ((c b).eraseIdx i)) o where
  src := by
    intro b' hb' e he
    by_cases h : b' = b
    · subst h
      rw [upd_same] at he
      exact hc.src b' hb' e (List.mem_of_mem_eraseIdx he)
    · rw [upd_other _ _ h] at he; exact hc.src b' hb' e he
  nodup := by
    intro b' hb'
    by_cases h : b' = b
    · subst h
      rw [upd_same]
      exact (hc.nodup b' hb').sublist ((List.eraseIdx_sublist _ _).map _)
    · rw [upd_other _ _ h]; exact hc.nodup b' hb'
  osrc := by
    intro e he
    obtain ⟨h1, q', b', h2, h3⟩ := hc.osrc e he
    refine ⟨h1, q', b', h2, ?_⟩
    by_cases h : b' = b
    · subst h
      rw [upd_same]
      exact fun h4 => h3 (((List.eraseIdx_sublist _ _).map _).subset h4)
    · rw [upd_other _ _ h]; exact h3
  okeys := hc.okeys

theorem COK.set {H : HashMapping} {kw tb b i v : Nat} {c : Cont} {o : List (Nat × Nat × Nat)}
    (hc : COK H kw tb c o) (hi : i < (c b).length) :
    COK H kw tb (upd c b ((c b).set i ((c b)[i].1, v))) o := by
  have hfst : ((c b).set i ((c b)[i].1, v)).map Prod.fst = (c b).map Prod.fst := by
    rw [List.map_set]
    have : ((c b)[i].1 : Nat) = ((c b).map Prod.fst)[i]'(by simpa using hi) := by simp
    simp only [this, List.set_getElem_self]
  exact {
    src := by
      intro b' hb' e he
      by_cases h : b' = b
      · subst h
        rw [upd_same] at he
        have : e.1 ∈ (c b').map Prod.fst := hfst ▸ List.mem_map.mpr ⟨e, he, rfl⟩
        obtain ⟨e', he', h'⟩ := List.mem_map.mp this
        rw [← h']; exact hc.src b' hb' e' he'
      · rw [upd_other _ _ h] at he; exact hc.src b' hb' e he
    nodup := by
      intro b' hb'
      by_cases h : b' = b
      · subst h; rw [upd_same, hfst]; exact hc.nodup b' hb'
      · rw [upd_other _ _ h]; exact hc.nodup b' hb'
    osrc := by
      intro e he
      obtain ⟨h1, q', b', h2, h3⟩ := hc.osrc e he
      refine ⟨h1, q', b', h2, ?_⟩
      by_cases h : b' = b
      · subst h; rw [upd_same, hfst]; exact h3
      · rw [upd_other _ _ h]; exact h3
    okeys := hc.okeys }

theorem COK.ovf {H : HashMapping} {kw tb : Nat} {c : Cont} {o o' : List (Nat × Nat × Nat)}
    (hc : COK H kw tb c o) (h : (o'.map (fun e => e.2.1)).Sublist (o.map (fun e => e.2.1))) : COK H kw tb c o' where
  src := hc.src
  nodup := hc.nodup
  osrc := by
    intro e he
    have : e.2.1 ∈ o.map (fun e => e.2.1) := h.subset (List.mem_map.mpr ⟨e, he, rfl⟩)
    obtain ⟨e', he', h'⟩ := List.mem_map.mp this
    have := hc.osrc e' he'
    rw [h'] at this; exact this
  okeys := hc.okeys.sublist h

theorem COK.ovf_insert {H : HashMapping} {kw tb p k v q b : Nat} {c : Cont} {o o' : List (Nat × Nat × Nat)}
    (hc : COK H kw tb c o) (h : o'.Perm ((p, k, v) :: o)) (hk : k < 2 ^ kw) (hm : H.map k tb = .ok (q, b))
    (hq : q ∉ (c b).map Prod.fst) (ho : ∀ e ∈ o, e.2.1 ≠ k) : COK H kw tb c o' where
  src := hc.src
  nodup := hc.nodup
  osrc := by
    intro e he
    rcases List.mem_cons.mp (h.mem_iff.mp he) with rfl | he
    · exact ⟨hk, q, b, hm, hq⟩
    · exact hc.osrc e he
  okeys := by
    rw [(h.map (fun e => e.2.1)).nodup_iff, List.map_cons, List.nodup_cons]
    refine ⟨?_, hc.okeys⟩
    rintro h
    obtain ⟨e, he, h'⟩ := List.mem_map.mp h
    exact ho e he h'

end SC
