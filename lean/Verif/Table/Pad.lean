import Verif.Sep.Table
/-!
# Tables whose quotients may have no bits

With `SEPARATE_MAX_BUCKET_SIZE` = 1 and a bijective hash function a table may get as many buckets as there are keys; the
quotients then have width 0, for which the laws of the buckets say nothing.  Key buckets of a fixed cell type ignore
the width, so that the table does the same as one whose quotients are given a width of at least 1, and the laws apply to that one.
-/
namespace SC
variable {S O : Type}

/-- the same functions with quotients of at least one bit -/
def HashMapping.pad (H : HashMapping) : HashMapping := { H with remainderWidth := fun tb => max 1 (H.remainderWidth tb) }

/-- storage code that gets `F d` instead of `d` -/
def StoreOps.via (o : StoreOps S) (F : Dim → Dim) : StoreOps S where
  alloc d := o.alloc (F d)
  size s d b := o.size s (F d) b
  locate s d b q := o.locate s (F d) b q
  full s d b := o.full s (F d) b
  push s d b q v := o.push s (F d) b q v
  quotientAt s d b i := o.quotientAt s (F d) b i
  valueAt s d b i := o.valueAt s (F d) b i
  writeValue s d b i v := o.writeValue s (F d) b i v
  eraseAt s d b i := o.eraseAt s (F d) b i
  shrink s d b := o.shrink s (F d) b

/-- the table with quotients of at least one bit, whose storage code is told the true width -/
def Cfg.pad (g : Cfg S O) : Cfg S O :=
  { g with
    hash := fun kw => (g.hash kw).pad
    ops := g.ops.via (fun d => { d with qw := (g.hash d.kw).remainderWidth d.tb }) }

variable {g : Cfg S O}

theorem moveOverflow_pad (ins : Tab S O → Nat → Nat → Res (Tab S O × Nav)) (t : Tab S O) : ∀ n i tmp,
    Tab.moveOverflow g.pad ins t n i tmp = Tab.moveOverflow g ins t n i tmp := by
  intro n
  induction n with
  | zero => intro i tmp; rfl
  | succ n ih =>
    intro i tmp
    simp only [Tab.moveOverflow, ih]
    rfl

theorem reserveWith_pad (ins : Tab S O → Nat → Nat → Res (Tab S O × Nav)) (t : Tab S O) (n nkw : Nat) :
    t.reserveWith g.pad ins n nkw = t.reserveWith g ins n nkw := by
  unfold Tab.reserveWith
  simp only [moveOverflow_pad]
  rfl

theorem findOrInsert_pad : ∀ n, Tab.findOrInsert g.pad n = Tab.findOrInsert g n := by
  intro n
  induction n with
  | zero => rfl
  | succ n ih =>
    funext t k v
    rw [Tab.findOrInsert, Tab.findOrInsert, ih]
    simp only [reserveWith_pad]
    rfl

theorem insert_pad (t : Tab S O) (k v : Nat) : t.insert g.pad k v = t.insert g k v := by
  unfold Tab.insert
  rw [findOrInsert_pad]

theorem reserve_pad (t : Tab S O) (n nkw : Nat) : t.reserve g.pad n nkw = t.reserve g n nkw := by
  unfold Tab.reserve
  rw [findOrInsert_pad, reserveWith_pad]

/-- `key()` asserts in debug builds that the width is positive -/
theorem keyAt_pad (hd : g.debug = false) (t : Tab S O) (n : Nav) : t.keyAt g.pad n = t.keyAt g n := by
  have hd' : g.pad.debug = false := hd
  unfold Tab.keyAt
  simp only [hd, hd', ddcheck_off]
  rfl

theorem step_pad (hd : g.debug = false) (t : Tab S O) (op : MapOp) : t.step g.pad op = t.step g op := by
  cases op with
  | insert k v => simp only [Tab.step, insert_pad, keyAt_pad hd]; rfl
  | find k => simp only [Tab.step, keyAt_pad hd]; rfl
  | get k => simp only [Tab.step, Tab.subscript, insert_pad]; rfl
  | assign k v => simp only [Tab.step, Tab.subscript, insert_pad]; rfl
  | reserve n => simp only [Tab.step, reserve_pad]
  | _ => rfl

theorem run_pad (hd : g.debug = false) (ops : List MapOp) (t : Tab S O) : Tab.run g.pad t ops = Tab.run g t ops := by
  induction ops generalizing t with
  | nil => rfl
  | cons op ops ih =>
    simp only [Tab.run]
    rw [step_pad hd t op]
    congr 1
    funext r
    rw [ih]

/-! ## Buckets that ignore the width -/

/-- the functions of a bucket class do not depend on the width they are passed -/
def BucketOps.IgnoresWidth {B : Type} (o : BucketOps B) : Prop :=
  (∃ f : B → Nat → Nat → Res B, o.resize = fun b a n _ => f b a n) ∧
    (∃ f : B → Nat → Nat → Res B, o.write = fun b i x _ => f b i x) ∧ (∃ f : B → Nat → Res Nat, o.read = fun b i _ => f b i) ∧
    (∃ f : B → Nat → Nat → Res Nat, o.find = fun b x n _ => f b x n) ∧ ∃ f : B → Nat → Nat → Res B, o.erase = fun b i n _ => f b i n

variable {KB VB : Type}

theorem via_qw {p : SepCfg KB VB} (h : p.kops.IgnoresWidth) (f : Dim → Nat) : p.ops.via (fun d => { d with qw := f d }) = p.ops := by
  obtain ⟨⟨f1, e1⟩, ⟨f2, e2⟩, ⟨f3, e3⟩, ⟨f4, e4⟩, f5, e5⟩ := h
  simp only [StoreOps.via, SepCfg.ops, SepCfg.pushBucket, SepCfg.eraseBucket, SepCfg.shrinkBucket, e1, e2, e3, e4, e5]

/-! ## The padded hash mapping -/

theorem lawful_pad {f : BijHash} {sbits w tb : Nat} (hf : LawfulBij f w) (hw : w ≤ 63) (h1 : 1 ≤ tb)
    (htb : tb ≤ w) (hs : w - tb ≤ sbits) : LawfulMapping (bijectiveHashAdapter f sbits w).pad w tb where
  map_ok := by
    intro k hk
    obtain ⟨h, hh, hlt, hinv⟩ := hf.left k hk
    have hq := div_lt_quot hlt htb
    have hqs : h / 2 ^ tb % 2 ^ sbits = h / 2 ^ tb :=
      Nat.mod_eq_of_lt (Nat.lt_of_lt_of_le hq (Nat.pow_le_pow_right (by omega) hs))
    refine ⟨h / 2 ^ tb, h % 2 ^ tb, ?_, Nat.mod_lt _ (Nat.two_pow_pos tb), ?_, ?_⟩
    · show (bijectiveHashAdapter f sbits w).map k tb = _
      rw [bij_map (by omega) hh, hqs]
    · show _ < 2 ^ max 1 ((bijectiveHashAdapter f sbits w).remainderWidth tb)
      rw [bij_remainderWidth (by omega) htb]
      exact Nat.lt_of_lt_of_le hq (Nat.pow_le_pow_right (by omega) (by omega))
    · exact bij_invMap (sbits := sbits) (by omega) (Nat.lt_of_lt_of_le hlt (Nat.pow_le_pow_right (by omega) (by omega))) rfl rfl hinv
  width_pos := Nat.le_max_left _ _
  width_le := by
    show max 1 ((bijectiveHashAdapter f sbits w).remainderWidth tb) ≤ 64
    rw [bij_remainderWidth (by omega) htb]; omega

/-- keys of one bucket have different hash values, of which the bucket fixes `tb` bits -/
theorem bij_bucket_bound {f : BijHash} {sbits w tb b : Nat} (hf : LawfulBij f w) (hw : w ≤ 63)
    (htb : tb ≤ w) {ks : List Nat} (hn : ks.Nodup)
    (hk : ∀ k ∈ ks, k < 2 ^ w ∧ ∃ q, (bijectiveHashAdapter f sbits w).map k tb = .ok (q, b)) : ks.length ≤ 2 ^ (w - tb) := by
  have hv : ∀ k ∈ ks, ∃ h, f.hash w k = .ok h ∧ h < 2 ^ w ∧ f.hashInv w h = .ok k ∧ h % 2 ^ tb = b := by
    intro k hm
    obtain ⟨h1, q, h2⟩ := hk k hm
    obtain ⟨h, a1, a2, a3⟩ := hf.left k h1
    rw [bij_map (by omega) a1] at h2
    exact ⟨h, a1, a2, a3, congrArg Prod.snd (Except.ok.inj h2)⟩
  have hF : ∀ k h, f.hash w k = .ok h → (match f.hash w k with | .ok h => h / 2 ^ tb | .error _ => 0) = h / 2 ^ tb := by
    intro k h e; rw [e]
  apply length_le_of_inj (fun k => match f.hash w k with | .ok h => h / 2 ^ tb | .error _ => 0) hn
  · intro k hm
    obtain ⟨h, a1, a2, _, _⟩ := hv k hm
    rw [hF k h a1]
    exact div_lt_quot a2 htb
  · intro x hx y hy he
    obtain ⟨h, a1, _, a3, a4⟩ := hv x hx
    obtain ⟨h', b1, _, b3, b4⟩ := hv y hy
    rw [hF x h a1, hF y h' b1] at he
    have e : h = h' := by
      rw [← Nat.div_add_mod h (2 ^ tb), ← Nat.div_add_mod h' (2 ^ tb), he, a4, b4]
    rw [e, b3] at a3
    exact (Except.ok.inj a3).symm

theorem hashOK_pad {f : BijHash} {sbits kw W lo grow maxE : Nat} (hf : LawfulBij f kw) (hkw : kw ≤ 63)
    (hlo : 1 ≤ lo) (hW : kw ≤ W + lo) (hW1 : 1 ≤ W) (hs : kw ≤ sbits + lo) (hg : grow ≤ kw) (hlo2 : lo ≤ kw)
    (hroom : 2 ^ (kw - grow) ≤ maxE) :
    HashOK (bijectiveHashAdapter f sbits kw).pad kw W lo kw grow maxE 1 where
  kw_le := by omega
  lo_pos := hlo
  hi_lt := by omega
  grow_le := hg
  mapping := fun tb h1 h2 => lawful_pad hf hkw (by omega) h2 (by omega)
  qw_le := fun tb h1 h2 => by
    show max 1 ((bijectiveHashAdapter f sbits kw).remainderWidth tb) ≤ kw ∧ max 1 ((bijectiveHashAdapter f sbits kw).remainderWidth tb) ≤ W
    rw [bij_remainderWidth (by omega) h2]; omega
  room := by
    intro tb h1 h2 h3 b ks hn hk
    have := bij_bucket_bound (sbits := sbits) (tb := tb) (b := b) hf hkw h3 hn hk
    have h4 : 2 ^ (kw - tb) ≤ 2 ^ (kw - grow) := Nat.pow_le_pow_right (by omega) (by omega)
    omega

end SC
