import Verif.Io.Hdf

/-!
# C32: writing always succeeds, and values survive any reading order
-/

namespace Verif.Io

variable {V A T : Type}

/-! ### Success of writing -/

theorem writeSeq_ok {rank : Nat → Nat}
    {wo : Seg → Path → Nat → Writer V A T → Except PyErr (Writer V A T)} {R : Nat}
    (hwo : ∀ x p r w, rank r < R → ∃ w', wo x p r w = .ok w') (g : Path) (rs : List Nat) (i : Nat)
    (w : Writer V A T) (hr : ∀ r ∈ rs, rank r < R) : ∃ w', writeSeq wo g i rs w = .ok w' := by
  induction rs generalizing i w with
  | nil => exact ⟨w, rfl⟩
  | cons r rs ih =>
    obtain ⟨w1, h1⟩ := hwo (.idx i) g r w (hr r List.mem_cons_self)
    obtain ⟨w2, h2⟩ := ih (i + 1) w1 (fun r h => hr r (List.mem_cons_of_mem _ h))
    refine ⟨w2, ?_⟩
    unfold writeSeq
    rw [h1]; exact h2

theorem foldFields_ok {rank : Nat → Nat}
    {wo : Seg → Path → Nat → Writer V A T → Except PyErr (Writer V A T)} {R : Nat}
    (hwo : ∀ x p r w, rank r < R → ∃ w', wo x p r w = .ok w') (p : Path)
    (fs : List (String × Field V A)) (hr : ∀ f ∈ fs, ∀ r, Refers f.2 r → rank r < R)
    (w : Writer V A T) : ∃ w', fs.foldlM (writeField wo p) w = .ok w' := by
  induction fs generalizing w with
  | nil => exact ⟨w, rfl⟩
  | cons f fs ih =>
    have h1 : ∃ w1, writeField wo p w f = .ok w1 := by
      have hf := hr f List.mem_cons_self
      obtain ⟨name, fd⟩ := f
      cases fd with
      | absent => exact ⟨_, rfl⟩
      | scalar v => exact ⟨_, rfl⟩
      | arr a v => exact ⟨_, rfl⟩
      | obj r => exact hwo _ _ _ _ (hf r rfl)
      | seq rs =>
        simp only [writeField]
        split
        · exact writeSeq_ok hwo _ _ _ _ (fun r h => hf r h)
        · exact writeSeq_ok hwo _ _ _ _ (fun r h => hf r h)
    obtain ⟨w1, h1⟩ := h1
    obtain ⟨w2, h2⟩ := ih (fun f h => hr f (List.mem_cons_of_mem _ h)) w1
    refine ⟨w2, ?_⟩
    rw [List.foldlM_cons, h1]; exact h2

theorem writeObj_ok {H : Nat → Obj V A T} {reg : T → Bool} {rank : Nat → Nat}
    (hreg : ∀ r, reg (H r).tag)
    (hac : ∀ r, ∀ f ∈ (H r).fields, ∀ r', Refers f.2 r' → rank r' < rank r) (R : Nat) :
    ∀ x p r (w : Writer V A T), rank r < R → ∃ w', writeObj H reg R x p r w = .ok w' := by
  induction R with
  | zero => intro x p r w h; omega
  | succ R ih =>
    intro x p r w h
    unfold writeObj
    rw [if_neg (by simp [hreg r])]
    split
    · exact ⟨_, rfl⟩
    split
    · exact ⟨_, rfl⟩
    · obtain ⟨w2, h2⟩ := foldFields_ok (rank := rank) ih (x :: p) (H r).fields
        (fun f hf r' hr' => by have := hac r f hf r' hr'; omega)
        { w with
          file := addLink w.file x p .group
          objs := upd w.objs r (some (x :: p)) }
      rw [h2]; exact ⟨_, rfl⟩

/-- **C32** (writing): an object graph without reference cycles whose classes are registered is
written without an error, whatever is shared, as long as its depth is below the recursion limit. -/
theorem C32_write_succeeds {H : Nat → Obj V A T} {reg : T → Bool} {rank : Nat → Nat}
    (hreg : ∀ r, reg (H r).tag)
    (hac : ∀ r, ∀ f ∈ (H r).fields, ∀ r', Refers f.2 r' → rank r' < rank r) (R root : Nat)
    (h : rank root ≤ R) : ∃ w, writeRoot H reg R root = .ok w :=
  foldFields_ok (rank := rank) (writeObj_ok hreg hac R) [] _
    (fun f hf r' hr' => by have := hac root f hf r' hr'; omega) _

/-- An object whose class is not registered is refused, and so is every graph containing it. -/
theorem C32_unregistered (H : Nat → Obj V A T) (reg : T → Bool) (R : Nat) (x : Seg) (p : Path) (r : Nat)
    (w : Writer V A T) (h : reg (H r).tag = false) : writeObj H reg (R + 1) x p r w = .error .runtime := by
  unfold writeObj
  rw [if_pos (by simp [h])]

/-! ### The content of the file -/

/-- The link at `g` leads to the object `r`. -/
def ObjEnc (F : File V A T) (C : Nat → Option Path) (g : Path) (r : Nat) : Prop :=
  (F.links g = some .group ∧ C r = some g) ∨ ∃ q, F.links g = some (.soft q) ∧ C r = some q

/-- The field `name` of the group `p` is stored. -/
def FieldEnc (F : File V A T) (C : Nat → Option Path) (p : Path) (nf : String × Field V A) : Prop :=
  match nf.2 with
  | .absent => F.attr (.field nf.1 :: p) = none ∧ F.links (.field nf.1 :: p) = none
  | .scalar v => F.attr (.field nf.1 :: p) = some v
  | .arr _ v => F.links (.field nf.1 :: p) = some (.data v) ∨
      ∃ q, F.links (.field nf.1 :: p) = some (.soft q) ∧ F.links q = some (.data v)
  | .obj r => ObjEnc F C (.field nf.1 :: p) r
  | .seq rs => F.links (.field nf.1 :: p) = some .group ∧ F.kids (.field nf.1 :: p) = rs.length ∧
      ∀ i r, rs[i]? = some r → ObjEnc F C (.idx i :: .field nf.1 :: p) r

/-- The object `r` is stored completely in the group `q`. -/
def Stored (H : Nat → Obj V A T) (F : File V A T) (C : Nat → Option Path) (r : Nat) (q : Path) : Prop :=
  F.links q = some .group ∧ F.tag q = some (H r).tag ∧ ∀ nf ∈ (H r).fields, FieldEnc F C q nf

/-- While the fields of the group `p` are written, every object in the cache is stored completely or
is one of those being written. -/
structure Inv (H : Nat → Obj V A T) (val : Nat → A) (w : Writer V A T) (p : Path) : Prop where
  done : ∀ r q, w.objs r = some q → q <:+ p ∨ Stored H w.file w.objs r q
  group : ∀ r q, w.objs r = some q → w.file.links q = some .group
  inj : ∀ r r' q, w.objs r = some q → w.objs r' = some q → r = r'
  arrs : ∀ a q, w.arrs a = some q → w.file.links q = some (.data (val a))

/-- Cached objects stay cached. -/
def Grows (w w' : Writer V A T) : Prop := ∀ r q, w.objs r = some q → w'.objs r = some q

/-- The part of the file which existed before does not change. -/
def Keeps (w w' : Writer V A T) (g : Path) : Prop := Fresh w g ∧ Frame w w' g ∧ Grows w w'

theorem Keeps.links {w w' : Writer V A T} {g : Path} (h : Keeps w w' g) (q : Path) (l : Link A)
    (hq : w.file.links q = some l) : w'.file.links q = some l := by
  rw [h.2.1.links q]
  · exact hq
  · intro hc; rw [(h.1 q hc).1] at hq; cases hq

theorem Keeps.objEnc {w w' : Writer V A T} {g : Path} (h : Keeps w w' g) (q : Path) (r : Nat)
    (hq : ObjEnc w.file w.objs q r) : ObjEnc w'.file w'.objs q r := by
  rcases hq with ⟨a, b⟩ | ⟨q', a, b⟩
  · exact Or.inl ⟨h.links _ _ a, h.2.2 _ _ b⟩
  · exact Or.inr ⟨q', h.links _ _ a, h.2.2 _ _ b⟩

/-- Stored fields are not affected by writing elsewhere. -/
theorem Keeps.fieldEnc {w w' : Writer V A T} {x : Seg} {p : Path} (h : Keeps w w' (x :: p)) (q : Path)
    (nf : String × Field V A) (hg : ¬ (x :: p) <:+ (.field nf.1 :: q)) (hp : Seg.field nf.1 :: q ≠ p)
    (hq : FieldEnc w.file w.objs q nf) : FieldEnc w'.file w'.objs q nf := by
  obtain ⟨name, f⟩ := nf
  cases f with
  | absent => exact ⟨(h.2.1.attr _ hg).trans hq.1, (h.2.1.links _ hg).trans hq.2⟩
  | scalar v => exact (h.2.1.attr _ hg).trans hq
  | arr a v =>
    rcases hq with hq | ⟨q', a1, a2⟩
    · exact Or.inl (h.links _ _ hq)
    · exact Or.inr ⟨q', h.links _ _ a1, h.links _ _ a2⟩
  | obj r => exact h.objEnc _ _ hq
  | seq rs =>
    exact ⟨h.links _ _ hq.1, (h.2.1.kids _ hg (by simpa using hp)).trans hq.2.1,
      fun i r hr => h.objEnc _ _ (hq.2.2 i r hr)⟩

theorem suffix_cons_split {x : Seg} {p q : Path} {y : Seg} (h : (x :: p) <:+ (y :: q)) :
    (x = y ∧ p = q) ∨ (x :: p) <:+ q := by
  rcases List.suffix_cons_iff.mp h with h | h
  · simp only [List.cons.injEq] at h; exact Or.inl h
  · exact Or.inr h

/-- Stored objects are not affected by writing elsewhere. -/
theorem Keeps.stored {H : Nat → Obj V A T} {w w' : Writer V A T} {x : Seg} {p : Path}
    (h : Keeps w w' (x :: p)) (r : Nat) (q : Path) (hq : Stored H w.file w.objs r q)
    (hp : ¬ q <:+ p) : Stored H w'.file w'.objs r q := by
  have hng : ¬ (x :: p) <:+ q := fun hc => by
    have h1 := hq.1
    rw [(h.1 q hc).1] at h1; cases h1
  refine ⟨h.links _ _ hq.1, (h.2.1.tag q hng).trans hq.2.1, fun nf hnf => ?_⟩
  refine h.fieldEnc q nf ?_ ?_ (hq.2.2 nf hnf)
  · intro hc
    rcases suffix_cons_split hc with ⟨_, rfl⟩ | hc
    · exact hp List.suffix_rfl
    · exact hng hc
  · rintro rfl
    exact hp (List.suffix_cons _ _)

/-- The invariant survives a step below `x :: p` that adds no object. -/
theorem Keeps.inv {H : Nat → Obj V A T} {val : Nat → A} {w w' : Writer V A T} {x : Seg} {p : Path}
    (h : Keeps w w' (x :: p)) (i : Inv H val w p) (ho : w'.objs = w.objs)
    (ha : ∀ a q, w'.arrs a = some q → w'.file.links q = some (.data (val a))) : Inv H val w' p := by
  constructor
  · intro r q hq
    rw [ho] at hq
    rcases i.done r q hq with hs | hs
    · exact Or.inl hs
    · by_cases hp : q <:+ p
      · exact Or.inl hp
      · exact Or.inr (h.stored r q hs hp)
  · intro r q hq
    rw [ho] at hq
    exact h.links _ _ (i.group r q hq)
  · rw [ho]; exact i.inj
  · exact ha

/-- Writing an object keeps the invariant and stores the object. -/
def WInv (H : Nat → Obj V A T) (val : Nat → A)
    (wo : Seg → Path → Nat → Writer V A T → Except PyErr (Writer V A T)) : Prop :=
  ∀ x p r w w', wo x p r w = .ok w' → Fresh w (x :: p) → Inv H val w p →
    Inv H val w' p ∧ ObjEnc w'.file w'.objs (x :: p) r ∧ Grows w w' ∧ Frame w w' (x :: p) ∧
    w'.file.kids p = w.file.kids p + 1 ∧
    (∀ r q, w'.objs r = some q → w.objs r = some q ∨ w.file.links q = none)

theorem Inv.down {H : Nat → Obj V A T} {val : Nat → A} {w : Writer V A T} {p : Path} (x : Seg)
    (i : Inv H val w p) : Inv H val w (x :: p) :=
  ⟨fun r q hq => (i.done r q hq).imp (fun h => h.trans (List.suffix_cons _ _)) id, i.group, i.inj, i.arrs⟩

/-- A group that is not an object's adds nothing to the objects being written. -/
theorem Inv.upSeq {H : Nat → Obj V A T} {val : Nat → A} {w : Writer V A T} {x : Seg} {p : Path}
    (hx : ∀ r, w.objs r ≠ some (x :: p)) (i : Inv H val w (x :: p)) : Inv H val w p := by
  refine ⟨fun r q hq => ?_, i.group, i.inj, i.arrs⟩
  rcases i.done r q hq with h | h
  · rcases List.suffix_cons_iff.mp h with rfl | h
    · exact absurd hq (hx r)
    · exact Or.inl h
  · exact Or.inr h

theorem winv_seq {H : Nat → Obj V A T} {val : Nat → A}
    {wo : Seg → Path → Nat → Writer V A T → Except PyErr (Writer V A T)} (hwo : WInv H val wo)
    (g : Path) (rs : List Nat) (i : Nat) (w w' : Writer V A T)
    (h : writeSeq wo g i rs w = .ok w') (hf : ∀ j, i ≤ j → Fresh w (.idx j :: g)) (inv : Inv H val w g) :
    Inv H val w' g ∧ (∀ j r, rs[j]? = some r → ObjEnc w'.file w'.objs (.idx (i + j) :: g) r) ∧
      Grows w w' ∧ w'.file.kids g = w.file.kids g + rs.length ∧
      (∀ q l, w.file.links q = some l → w'.file.links q = some l) ∧
      (∀ r q, w'.objs r = some q → w.objs r = some q ∨ w.file.links q = none) := by
  induction rs generalizing i w with
  | nil =>
    cases h
    exact ⟨inv, by simp, fun _ _ h => h, rfl, fun _ _ h => h, fun _ _ h => Or.inl h⟩
  | cons r rs ih =>
    unfold writeSeq at h
    cases h1 : wo (.idx i) g r w with
    | error e => rw [h1] at h; cases h
    | ok w1 =>
      rw [h1] at h
      obtain ⟨i1, o1, g1, fr1, k1, n1⟩ := hwo _ _ _ _ _ h1 (hf i le_rfl) inv
      have hf1 : ∀ j, i + 1 ≤ j → Fresh w1 (.idx j :: g) := by
        intro j hj q hq
        have hn : ¬ (Seg.idx i :: g) <:+ q := suffix_cons_ne (by simp; omega) hq
        obtain ⟨c1, c2, c3⟩ := hf j (by omega) q hq
        refine ⟨(fr1.links q hn).trans c1, (fr1.attr q hn).trans c2, (fr1.kids q hn ?_).trans c3⟩
        rintro rfl
        exact not_suffix_self _ _ hq
      obtain ⟨i2, o2, g2, k2, l2, n2⟩ := ih (i + 1) w1 h hf1 i1
      have kp : Keeps w w1 (.idx i :: g) := ⟨hf i le_rfl, fr1, g1⟩
      refine ⟨i2, ?_, fun r q h => g2 r q (g1 r q h), ?_, fun q l hq => l2 q l (kp.links q l hq), ?_⟩
      · intro j r' hj
        cases j with
        | zero =>
          simp only [List.getElem?_cons_zero, Option.some.injEq] at hj
          subst hj
          rcases o1 with ⟨a, b⟩ | ⟨q', a, b⟩
          · exact Or.inl ⟨l2 _ _ a, g2 _ _ b⟩
          · exact Or.inr ⟨q', l2 _ _ a, g2 _ _ b⟩
        | succ j =>
          rw [List.getElem?_cons_succ] at hj
          have := o2 j r' hj
          rwa [show i + 1 + j = i + (j + 1) by omega] at this
      · rw [k2, k1, List.length_cons]; omega
      · intro r' q hq
        rcases n2 r' q hq with hq | hq
        · exact n1 r' q hq
        · right
          by_contra hc
          obtain ⟨l, hl⟩ := Option.ne_none_iff_exists'.mp hc
          rw [kp.links q l hl] at hq; cases hq

theorem winv_field {H : Nat → Obj V A T} {val : Nat → A}
    {wo : Seg → Path → Nat → Writer V A T → Except PyErr (Writer V A T)} (hwo : WInv H val wo)
    (hfr : Framed wo) (p : Path) (nf : String × Field V A) (w w' : Writer V A T)
    (h : writeField wo p w nf = .ok w') (hf : Fresh w (.field nf.1 :: p)) (inv : Inv H val w p)
    (hv : ∀ a v, nf.2 = .arr a v → v = val a) :
    Inv H val w' p ∧ FieldEnc w'.file w'.objs p nf ∧ Grows w w' ∧
      (∀ r q, w'.objs r = some q → w.objs r = some q ∨ w.file.links q = none) := by
  have fr := writeField_frame hfr p nf w w' h
  obtain ⟨name, f⟩ := nf
  obtain ⟨f1, f2, f3⟩ := hf _ List.suffix_rfl
  cases f with
  | absent =>
    cases h
    exact ⟨inv, ⟨f2, f1⟩, fun _ _ h => h, fun _ _ h => Or.inl h⟩
  | scalar v =>
    cases h
    refine ⟨Keeps.inv ⟨hf, fr, fun _ _ h => h⟩ inv rfl inv.arrs, ?_, fun _ _ h => h,
      fun _ _ h => Or.inl h⟩
    simp [FieldEnc, upd]
  | arr a v =>
    have hv' := hv a v rfl
    subst hv'
    cases h
    unfold writeArray at fr ⊢
    rw [if_neg (by rw [f1]; simp)] at fr ⊢
    cases hq : w.arrs a with
    | some q =>
      rw [hq] at fr
      have kp : Keeps w _ _ := ⟨hf, fr, fun _ _ h => h⟩
      refine ⟨kp.inv inv rfl (fun b q' hb => kp.links _ _ (inv.arrs b q' hb)), ?_, fun _ _ h => h,
        fun _ _ h => Or.inl h⟩
      right
      exact ⟨q, by simp [addLink, upd], kp.links _ _ (inv.arrs a q hq)⟩
    | none =>
      rw [hq] at fr
      have kp : Keeps w _ _ := ⟨hf, fr, fun _ _ h => h⟩
      refine ⟨kp.inv inv rfl ?_, ?_, fun _ _ h => h, fun _ _ h => Or.inl h⟩
      · intro b q hb
        simp only [upd] at hb
        split at hb
        · rename_i hba
          subst hba
          cases hb
          simp [addLink, upd]
        · exact kp.links _ _ (inv.arrs b q hb)
      · left
        simp [addLink, upd]
  | obj r =>
    obtain ⟨i1, o1, g1, _, _, n1⟩ := hwo _ _ _ _ _ h hf inv
    exact ⟨i1, o1, g1, n1⟩
  | seq rs =>
    simp only [writeField] at h
    rw [if_neg (by rw [f1]; simp)] at h
    have fr0 := addLink_frame w (.field name) p .group w.objs w.arrs
    have kp : Keeps w ⟨addLink w.file (.field name) p .group, w.objs, w.arrs⟩ (.field name :: p) :=
      ⟨hf, fr0, fun _ _ h => h⟩
    have inv0 := kp.inv inv rfl (fun b q' hb => kp.links _ _ (inv.arrs b q' hb))
    have hlen : ∀ q : Path, (Seg.field name :: p) <:+ q → q ≠ p := by
      rintro q hq rfl; exact not_suffix_self _ _ hq
    have hf' : ∀ j, 0 ≤ j → Fresh (⟨addLink w.file (.field name) p .group, w.objs, w.arrs⟩ : Writer V A T)
        (.idx j :: .field name :: p) := by
      intro j _ q hq
      have hq' : (Seg.field name :: p) <:+ q := (List.suffix_cons _ _).trans hq
      obtain ⟨g1, g2, g3⟩ := hf q hq'
      refine ⟨?_, g2, ?_⟩
      · simp only [addLink, upd]
        rw [if_neg (by rintro rfl; exact not_suffix_self _ _ hq)]; exact g1
      · simp only [addLink, upd]
        rw [if_neg (hlen q hq')]; exact g3
    obtain ⟨i2, o2, g2, k2, l2, n2⟩ := winv_seq hwo _ rs 0 _ w' h hf' (inv0.down _)
    refine ⟨i2.upSeq ?_, ⟨l2 _ _ (by simp [addLink, upd]), ?_, ?_⟩, g2, ?_⟩
    · intro r hr
      rcases n2 r _ hr with hr | hr
      · have := inv.group r _ hr
        rw [f1] at this; cases this
      · simp [addLink, upd] at hr
    · rw [k2]
      simp only [addLink, upd]
      rw [if_neg (hlen _ List.suffix_rfl), f3]; omega
    · intro i r hr
      have := o2 i r hr
      rwa [Nat.zero_add] at this
    · intro r q hq
      rcases n2 r q hq with hq | hq
      · exact Or.inl hq
      · right
        by_contra hc
        exact addLink_links _ _ _ _ _ hc hq

theorem winv_fields {H : Nat → Obj V A T} {val : Nat → A}
    {wo : Seg → Path → Nat → Writer V A T → Except PyErr (Writer V A T)} (hwo : WInv H val wo)
    (hfr : Framed wo) (p : Path) (fs : List (String × Field V A)) (w w' : Writer V A T)
    (h : fs.foldlM (writeField wo p) w = .ok w') (hnd : (fs.map (·.1)).Nodup)
    (hf : ∀ name ∈ fs.map (·.1), Fresh w (.field name :: p)) (inv : Inv H val w p)
    (hv : ∀ f ∈ fs, ∀ a v, f.2 = .arr a v → v = val a) :
    Inv H val w' p ∧ (∀ nf ∈ fs, FieldEnc w'.file w'.objs p nf) ∧ Grows w w' ∧
      (∀ r q, w'.objs r = some q → w.objs r = some q ∨ w.file.links q = none) ∧
      (∀ nf : String × Field V A, nf.1 ∉ fs.map (·.1) → FieldEnc w.file w.objs p nf →
        FieldEnc w'.file w'.objs p nf) := by
  induction fs generalizing w with
  | nil =>
    cases h
    exact ⟨inv, by simp, fun _ _ h => h, fun _ _ h => Or.inl h, fun _ _ h => h⟩
  | cons f fs ih =>
    rw [List.foldlM_cons] at h
    cases h1 : writeField wo p w f with
    | error e => rw [h1] at h; cases h
    | ok w1 =>
      rw [h1] at h
      rw [List.map_cons, List.nodup_cons] at hnd
      have fr1 := writeField_frame hfr p f w w1 h1
      have hff := hf f.1 (by simp)
      obtain ⟨i1, e1, g1, n1⟩ := winv_field hwo hfr p f w w1 h1 hff inv (hv f List.mem_cons_self)
      have kp : Keeps w w1 (.field f.1 :: p) := ⟨hff, fr1, g1⟩
      have hf1 : ∀ n ∈ fs.map (·.1), Fresh w1 (.field n :: p) := by
        intro n hn q hq
        have hne : f.1 ≠ n := by intro e; exact hnd.1 (e ▸ hn)
        have hns : ¬ (Seg.field f.1 :: p) <:+ q := suffix_cons_ne (by simpa using hne.symm) hq
        obtain ⟨c1, c2, c3⟩ := hf n (by rw [List.map_cons]; exact List.mem_cons_of_mem _ hn) q hq
        refine ⟨(fr1.links q hns).trans c1, (fr1.attr q hns).trans c2, (fr1.kids q hns ?_).trans c3⟩
        rintro rfl
        exact not_suffix_self _ _ hq
      obtain ⟨i2, e2, g2, n2, s2⟩ := ih w1 h hnd.2 hf1 i1 (fun f h => hv f (List.mem_cons_of_mem _ h))
      refine ⟨i2, ?_, fun r q h => g2 r q (g1 r q h), ?_, ?_⟩
      · intro nf hnf
        rcases List.mem_cons.mp hnf with rfl | hnf
        · exact s2 _ hnd.1 e1
        · exact e2 nf hnf
      · intro r q hq
        rcases n2 r q hq with hq | hq
        · exact n1 r q hq
        · right
          by_contra hc
          obtain ⟨l, hl⟩ := Option.ne_none_iff_exists'.mp hc
          rw [kp.links q l hl] at hq; cases hq
      · intro nf hnf henc
        rw [List.map_cons, List.mem_cons] at hnf
        push Not at hnf
        refine s2 nf hnf.2 (kp.fieldEnc p nf ?_ ?_ henc)
        · exact suffix_cons_ne (by simpa using hnf.1) List.suffix_rfl
        · intro e
          have := congrArg List.length e
          simp at this

theorem FieldEnc.tag {F : File V A T} {C : Nat → Option Path} {p : Path} {nf : String × Field V A}
    (t : Path → Option T) (h : FieldEnc F C p nf) : FieldEnc { F with tag := t } C p nf := h

theorem winv_obj {H : Nat → Obj V A T} {val : Nat → A} (reg : T → Bool)
    (hnm : ∀ r, ((H r).fields.map (·.1)).Nodup)
    (hv : ∀ r, ∀ f ∈ (H r).fields, ∀ a v, f.2 = .arr a v → v = val a) (R : Nat) :
    WInv H val (writeObj H reg R) := by
  induction R with
  | zero => intro x p r w w' h; cases h
  | succ R ih =>
    intro x p r w w' h hf inv
    have fr := writeObj_frame H reg (R + 1) x p r w w' h
    have kd := writeObj_kids H reg (R + 1) x p r w w' h hf
    obtain ⟨f1, f2, f3⟩ := hf _ List.suffix_rfl
    unfold writeObj at h
    split at h
    · cases h
    rw [if_neg (by rw [f1]; simp)] at h
    cases ho : w.objs r with
    | some q =>
      rw [ho] at h
      dsimp only at h
      cases h
      have kp : Keeps w _ (x :: p) := ⟨hf, fr, fun _ _ h => h⟩
      exact ⟨kp.inv inv rfl (fun a q' h => kp.links _ _ (inv.arrs a q' h)),
        Or.inr ⟨q, by simp [addLink, upd], ho⟩, fun _ _ h => h, fr, kd, fun _ _ h => Or.inl h⟩
    | none =>
      rw [ho] at h
      dsimp only at h
      split at h
      · cases h
      rename_i w2 h2
      cases h
      have hne : ∀ q, w.file.links q ≠ none → q ≠ x :: p := fun q h e => h (e ▸ f1)
      have g1 : Grows w (⟨addLink w.file x p .group, upd w.objs r (some (x :: p)), w.arrs⟩ : Writer V A T) := by
        intro r' q hq
        simp only [upd]
        rw [if_neg (by rintro rfl; rw [ho] at hq; cases hq)]; exact hq
      have kp1 : Keeps w ⟨addLink w.file x p .group, upd w.objs r (some (x :: p)), w.arrs⟩ (x :: p) :=
        ⟨hf, addLink_frame _ _ _ _ _ _, g1⟩
      have inv1 : Inv H val (⟨addLink w.file x p .group, upd w.objs r (some (x :: p)), w.arrs⟩ :
          Writer V A T) (x :: p) := by
        constructor
        · intro r' q hq
          simp only [upd] at hq
          split at hq
          · cases hq; exact Or.inl List.suffix_rfl
          · rcases inv.done r' q hq with hs | hs
            · exact Or.inl (hs.trans (List.suffix_cons _ _))
            · by_cases hp : q <:+ p
              · exact Or.inl (hp.trans (List.suffix_cons _ _))
              · exact Or.inr (kp1.stored r' q hs hp)
        · intro r' q hq
          simp only [upd] at hq
          split at hq
          · cases hq; simp [addLink, upd]
          · exact kp1.links _ _ (inv.group r' q hq)
        · intro r1 r2 q h1 h2
          simp only [upd] at h1 h2
          split at h1 <;> split at h2
          · rename_i e1 e2; exact e1.trans e2.symm
          · cases h1
            have := inv.group r2 _ h2
            rw [f1] at this; cases this
          · cases h2
            have := inv.group r1 _ h1
            rw [f1] at this; cases this
          · exact inv.inj r1 r2 q h1 h2
        · intro a q hq
          exact kp1.links _ _ (inv.arrs a q hq)
      have hf1 : ∀ name ∈ (H r).fields.map (·.1), Fresh (⟨addLink w.file x p .group,
          upd w.objs r (some (x :: p)), w.arrs⟩ : Writer V A T) (.field name :: x :: p) := by
        intro name _ q hq
        have hq' : (x :: p) <:+ q := (List.suffix_cons _ _).trans hq
        obtain ⟨g1, g2, g3⟩ := hf q hq'
        refine ⟨?_, g2, ?_⟩
        · simp only [addLink, upd]
          rw [if_neg (by rintro rfl; exact not_suffix_self _ _ hq)]; exact g1
        · simp only [addLink, upd]
          rw [if_neg (by rintro rfl; exact not_suffix_self _ _ hq')]; exact g3
      obtain ⟨i2, e2, g2, n2, _⟩ := winv_fields ih (writeObj_frame H reg R) (x :: p) (H r).fields _ w2 h2
        (hnm r) hf1 inv1 (hv r)
      have hr2 : w2.objs r = some (x :: p) := g2 r _ (by simp [upd])
      refine ⟨?_, Or.inl ⟨i2.group r _ hr2, hr2⟩, fun r' q hq => g2 r' q (g1 r' q hq), fr, kd, ?_⟩
      · constructor
        · intro r' q hq
          change w2.objs r' = some q at hq
          by_cases hrr : r' = r
          · subst hrr
            rw [hr2] at hq
            cases hq
            right
            exact ⟨i2.group r' _ hr2, by simp [upd], fun nf hnf => (e2 nf hnf).tag _⟩
          · have hqx : q ≠ x :: p := by
              rintro rfl
              exact hrr (i2.inj r' r _ hq hr2)
            rcases i2.done r' q hq with hs | hs
            · rcases List.suffix_cons_iff.mp hs with e | hs
              · exact absurd e hqx
              · exact Or.inl hs
            · right
              refine ⟨hs.1, ?_, fun nf hnf => (hs.2.2 nf hnf).tag _⟩
              show upd w2.file.tag (x :: p) _ q = _
              unfold upd
              rw [if_neg hqx]; exact hs.2.1
        · exact i2.group
        · exact i2.inj
        · exact i2.arrs
      · intro r' q hq
        rcases n2 r' q hq with hq | hq
        · simp only [upd] at hq
          split at hq
          · cases hq; exact Or.inr f1
          · exact Or.inl hq
        · right
          by_contra hc
          exact addLink_links _ _ _ _ _ hc hq

/-! ### Reading in any order -/

/-- A field read back has the value of the original; `src` lists of which object each object read so
far is a copy. -/
def FieldVal (src : List Nat) (f g : String × Field V A) : Prop :=
  f.1 = g.1 ∧ match f.2, g.2 with
    | .absent, .absent => True
    | .scalar v, .scalar v' => v' = v
    | .arr _ v, .arr _ v' => v' = v
    | .obj r, .obj n => src[n]? = some r
    | .seq rs, .seq ns => List.Forall₂ (fun r n => src[n]? = some r) rs ns
    | _, _ => False

/-- An object read back is a copy of `r`: same tag, and its fields are those of `r` in some order. -/
def Copy (H : Nat → Obj V A T) (src : List Nat) (o : Obj V A T) (r : Nat) : Prop :=
  o.tag = (H r).tag ∧ ∃ fs, fs.Perm (H r).fields ∧ List.Forall₂ (FieldVal src) fs o.fields

/-- Each class reads the fields it writes, in some order. -/
def Reads (H : Nat → Obj V A T) (schema : T → List (String × Kind)) : Prop :=
  ∀ r, ∃ fs, fs.Perm (H r).fields ∧ List.Forall₂ (fun (f : String × Field V A) (k : String × Kind) =>
    f.1 = k.1 ∧ Fits k.2 f.2) fs (schema (H r).tag)

/-- State of a reader. -/
structure ROk (H : Nat → Obj V A T) (F : File V A T) (C : Nat → Option Path) (s : Reader V A T)
    (src : List Nat) : Prop where
  len : src.length = s.objs.length
  copy : ∀ (n : Nat) (r : Nat), src[n]? = some r → ∃ o, s.objs[n]? = some o ∧ Copy H src o r
  cache : ∀ q n, s.cache q = some n → ∃ r, C r = some q ∧ src[n]? = some r
  acache : ∀ q n, s.acache q = some n → ∃ v, s.arrs[n]? = some v ∧ F.links q = some (.data v)

theorem getElem?_prefix {α : Type} {a b : List α} (h : a <+: b) {n : Nat} {x : α} (hx : a[n]? = some x) :
    b[n]? = some x := by
  obtain ⟨c, rfl⟩ := h
  have : n < a.length := by
    by_contra hc
    rw [List.getElem?_eq_none (by omega)] at hx; cases hx
  rw [List.getElem?_append_left this]; exact hx

theorem FieldVal.mono {a b : List Nat} (h : a <+: b) {f g : String × Field V A} (hv : FieldVal a f g) :
    FieldVal b f g := by
  refine ⟨hv.1, ?_⟩
  have := hv.2
  revert this
  cases f.2 <;> cases g.2 <;> simp only [imp_self]
  · exact fun hx => getElem?_prefix h hx
  · exact fun hx => hx.imp (fun _ _ hy => getElem?_prefix h hy)

theorem Copy.mono {H : Nat → Obj V A T} {a b : List Nat} (h : a <+: b) {o : Obj V A T} {r : Nat}
    (hc : Copy H a o r) : Copy H b o r := by
  obtain ⟨h1, fs, h2, h3⟩ := hc
  exact ⟨h1, fs, h2, h3.imp (fun _ _ hh => hh.mono h)⟩

/-- Reading objects of rank below `R` succeeds and yields copies. -/
def RSim (H : Nat → Obj V A T) (rank : Nat → Nat) (F : File V A T) (C : Nat → Option Path) (R : Nat)
    (ro : Seg → Path → Reader V A T → Except PyErr (Reader V A T × Nat)) : Prop :=
  ∀ x p r s src, ObjEnc F C (x :: p) r → rank r < R → ROk H F C s src →
    ∃ s' src' n, ro x p s = .ok (s', n) ∧ ROk H F C s' src' ∧ src <+: src' ∧ src'[n]? = some r

theorem rsim_seq {H : Nat → Obj V A T} {rank : Nat → Nat} {F : File V A T} {C : Nat → Option Path} {R : Nat}
    {ro : Seg → Path → Reader V A T → Except PyErr (Reader V A T × Nat)} (sim : RSim H rank F C R ro)
    (g : Path) (rs : List Nat) (i : Nat) (s : Reader V A T) (src : List Nat)
    (henc : ∀ j r, rs[j]? = some r → ObjEnc F C (.idx (i + j) :: g) r) (hr : ∀ r ∈ rs, rank r < R)
    (ok : ROk H F C s src) :
    ∃ s' src' ns, readSeq ro g i rs.length s = .ok (s', ns) ∧ ROk H F C s' src' ∧ src <+: src' ∧
      List.Forall₂ (fun r n => src'[n]? = some r) rs ns := by
  induction rs generalizing i s src with
  | nil => exact ⟨s, src, [], rfl, ok, List.prefix_rfl, .nil⟩
  | cons r rs ih =>
    obtain ⟨s1, src1, n, e1, ok1, p1, h1⟩ := sim (.idx i) g r s src (henc 0 r rfl)
      (hr r List.mem_cons_self) ok
    obtain ⟨s2, src2, ns, e2, ok2, p2, h2⟩ := ih (i + 1) s1 src1 (by
      intro j r' hj
      have := henc (j + 1) r' (by rw [List.getElem?_cons_succ]; exact hj)
      rwa [show i + (j + 1) = i + 1 + j by omega] at this)
      (fun r h => hr r (List.mem_cons_of_mem _ h)) ok1
    refine ⟨s2, src2, n :: ns, ?_, ok2, p1.trans p2, .cons (getElem?_prefix p2 h1) h2⟩
    rw [List.length_cons]
    unfold readSeq
    rw [e1]
    show (readSeq ro g (i + 1) rs.length s1 >>= _) = _
    rw [e2]; rfl

theorem rok_load {H : Nat → Obj V A T} {F : File V A T} {C : Nat → Option Path} {s : Reader V A T}
    {src : List Nat} (ok : ROk H F C s src) (q : Path) (v : A) (hq : F.links q = some (.data v)) :
    ROk H F C (loadArray q v s).1 src := by
  refine ⟨ok.len, ok.copy, ok.cache, ?_⟩
  intro q' n hn
  simp only [loadArray, upd] at hn ⊢
  split at hn
  · rename_i e
    cases hn
    exact ⟨v, by simp, e ▸ hq⟩
  · obtain ⟨v', h1, h2⟩ := ok.acache q' n hn
    have : n < s.arrs.length := by
      by_contra hc
      rw [List.getElem?_eq_none (by omega)] at h1; cases h1
    exact ⟨v', by rw [List.getElem?_append_left this]; exact h1, h2⟩

theorem rsim_field {H : Nat → Obj V A T} {rank : Nat → Nat} {F : File V A T} {C : Nat → Option Path}
    {R : Nat} {ro : Seg → Path → Reader V A T → Except PyErr (Reader V A T × Nat)}
    (sim : RSim H rank F C R ro) (p : Path) (name : String) (f : Field V A) (kd : Kind) (s : Reader V A T)
    (src : List Nat) (henc : FieldEnc F C p (name, f)) (hfit : Fits kd f)
    (hr : ∀ r, Refers f r → rank r < R) (ok : ROk H F C s src) :
    ∃ s' src' g, readField F ro p s (name, kd) = .ok (s', g) ∧ ROk H F C s' src' ∧ src <+: src' ∧
      FieldVal src' (name, f) g := by
  cases f with
  | absent =>
    refine ⟨s, src, (name, .absent), ?_, ok, List.prefix_rfl, rfl, trivial⟩
    have h1 : F.attr (.field name :: p) = none := henc.1
    have h2 : F.links (.field name :: p) = none := henc.2
    cases kd with
    | scalar => simp only [readField, h1]
    | arr => simp only [readField, readArray, h2]
    | obj => simp only [readField, h2]
    | seq => exact absurd hfit (by simp [Fits])
  | scalar v =>
    cases kd with
    | scalar =>
      have h1 : F.attr (.field name :: p) = some v := henc
      refine ⟨s, src, (name, .scalar v), ?_, ok, List.prefix_rfl, rfl, rfl⟩
      simp only [readField, h1]
    | _ => exact absurd hfit (by simp [Fits])
  | arr a v =>
    cases kd with
    | arr =>
      have henc' : F.links (.field name :: p) = some (.data v) ∨
        ∃ q, F.links (.field name :: p) = some (.soft q) ∧ F.links q = some (.data v) := henc
      rcases henc' with h | ⟨q, h, h'⟩
      · refine ⟨(loadArray _ v s).1, src, (name, .arr s.arrs.length v), ?_, rok_load ok _ v h,
          List.prefix_rfl, rfl, rfl⟩
        simp only [readField, readArray, h, loadArray]
      · cases hc : s.acache q with
        | some n =>
          obtain ⟨v', h1, h2⟩ := ok.acache q n hc
          rw [h'] at h2
          cases h2
          refine ⟨s, src, (name, .arr n v), ?_, ok, List.prefix_rfl, rfl, rfl⟩
          simp only [readField, readArray, h, hc, h1]
        | none =>
          refine ⟨(loadArray q v s).1, src, (name, .arr s.arrs.length v), ?_, rok_load ok _ v h',
            List.prefix_rfl, rfl, rfl⟩
          simp only [readField, readArray, h, hc, h', loadArray]
    | _ => exact absurd hfit (by simp [Fits])
  | obj r =>
    cases kd with
    | obj =>
      have henc' : ObjEnc F C (.field name :: p) r := henc
      obtain ⟨s', src', n, e, ok', pf, hn⟩ := sim (.field name) p r s src henc' (hr r rfl) ok
      refine ⟨s', src', (name, .obj n), ?_, ok', pf, rfl, hn⟩
      rcases henc' with ⟨h, _⟩ | ⟨q, h, _⟩ <;> simp only [readField, h, e]
    | _ => exact absurd hfit (by simp [Fits])
  | seq rs =>
    cases kd with
    | seq =>
      obtain ⟨h1, h2, h3⟩ := (show F.links (.field name :: p) = some .group ∧
        F.kids (.field name :: p) = rs.length ∧
        ∀ i r, rs[i]? = some r → ObjEnc F C (.idx i :: .field name :: p) r from henc)
      obtain ⟨s', src', ns, e, ok', pf, hn⟩ := rsim_seq sim (.field name :: p) rs 0 s src
        (by intro j r hj; rw [Nat.zero_add]; exact h3 j r hj) (fun r h => hr r h) ok
      refine ⟨s', src', (name, .seq ns), ?_, ok', pf, rfl, hn⟩
      simp only [readField, h1, h2, e]
    | _ => exact absurd hfit (by simp [Fits])

theorem rsim_fields {H : Nat → Obj V A T} {rank : Nat → Nat} {F : File V A T} {C : Nat → Option Path}
    {R : Nat} {ro : Seg → Path → Reader V A T → Except PyErr (Reader V A T × Nat)}
    (sim : RSim H rank F C R ro) (p : Path) (fs : List (String × Field V A)) (kds : List (String × Kind))
    (hord : List.Forall₂ (fun (f : String × Field V A) (k : String × Kind) => f.1 = k.1 ∧ Fits k.2 f.2)
      fs kds)
    (s : Reader V A T) (src : List Nat) (henc : ∀ f ∈ fs, FieldEnc F C p f)
    (hr : ∀ f ∈ fs, ∀ r, Refers f.2 r → rank r < R) (ok : ROk H F C s src) :
    ∃ s' src' gs, readFields F ro p kds s = .ok (s', gs) ∧ ROk H F C s' src' ∧ src <+: src' ∧
      List.Forall₂ (FieldVal src') fs gs := by
  induction hord generalizing s src with
  | nil => exact ⟨s, src, [], rfl, ok, List.prefix_rfl, .nil⟩
  | @cons f kd fs kds hfk hrest ih =>
    obtain ⟨name, fd⟩ := f
    obtain ⟨name', kind⟩ := kd
    obtain ⟨hnm, hfit⟩ := hfk
    dsimp only at hnm hfit
    subst hnm
    obtain ⟨s1, src1, g, e1, ok1, p1, h1⟩ := rsim_field sim p name fd kind s src
      (henc _ List.mem_cons_self) hfit (hr _ List.mem_cons_self) ok
    obtain ⟨s2, src2, gs, e2, ok2, p2, h2⟩ := ih s1 src1 (fun f h => henc f (List.mem_cons_of_mem _ h))
      (fun f h => hr f (List.mem_cons_of_mem _ h)) ok1
    refine ⟨s2, src2, g :: gs, ?_, ok2, p1.trans p2, .cons (h1.mono p2) h2⟩
    simp only [readFields, e1, e2]

theorem rsim_obj {H : Nat → Obj V A T} {schema : T → List (String × Kind)} {rank : Nat → Nat}
    {F : File V A T} {C : Nat → Option Path} {reg : T → Bool} (hreg : ∀ r, reg (H r).tag)
    (hrd : Reads H schema)
    (hac : ∀ r, ∀ f ∈ (H r).fields, ∀ r', Refers f.2 r' → rank r' < rank r)
    (hst : ∀ r q, C r = some q → Stored H F C r q)
    (hinj : ∀ r r' q, C r = some q → C r' = some q → r = r') (R : Nat) :
    RSim H rank F C R (readObj F schema reg R) := by
  induction R with
  | zero => intro x p r s src _ h; omega
  | succ R ih =>
    -- reading the group of an object
    have grp : ∀ r q s src, C r = some q → rank r < R + 1 → ROk H F C s src →
        ∃ s' src' n, readGroup F schema reg (readObj F schema reg R) q s = .ok (s', n) ∧
          ROk H F C s' src' ∧ src <+: src' ∧ src'[n]? = some r := by
      intro r q s src hq hrk ok
      obtain ⟨h1, h2, h3⟩ := hst r q hq
      obtain ⟨fs, hperm, hord⟩ := hrd r
      obtain ⟨s2, src2, gs, e2, ok2, p2, hgs⟩ := rsim_fields ih q fs (schema (H r).tag) hord s src
        (fun f hf => h3 f (hperm.mem_iff.mp hf))
        (fun f hf r' hr' => by have := hac r f (hperm.mem_iff.mp hf) r' hr'; omega) ok
      have pf : src2 <+: src2 ++ [r] := List.prefix_append _ _
      refine ⟨{ s2 with
          objs := s2.objs ++ [⟨(H r).tag, gs⟩]
          cache := upd s2.cache q (some s2.objs.length) }, src2 ++ [r], s2.objs.length, ?_, ?_,
        p2.trans pf, ?_⟩
      · simp only [readGroup, h2, e2]
        rw [if_neg (by simp [hreg r])]
      · constructor
        · simp [ok2.len]
        · intro n r' hn
          by_cases hlt : n < src2.length
          · rw [List.getElem?_append_left hlt] at hn
            obtain ⟨o, a1, a2⟩ := ok2.copy n r' hn
            refine ⟨o, ?_, a2.mono pf⟩
            dsimp only
            rw [List.getElem?_append_left (by rw [← ok2.len]; exact hlt)]; exact a1
          · rw [List.getElem?_append_right (by omega)] at hn
            have hz : n - src2.length = 0 := by
              by_contra hc
              rw [List.getElem?_eq_none (by simp; omega)] at hn; cases hn
            rw [hz] at hn
            simp only [List.getElem?_cons_zero, Option.some.injEq] at hn
            subst hn
            refine ⟨⟨(H r).tag, gs⟩, ?_, rfl, fs, hperm, hgs.imp (fun _ _ hh => hh.mono pf)⟩
            dsimp only
            rw [List.getElem?_append_right (by rw [← ok2.len]; omega), ← ok2.len, hz]; rfl
        · intro q' n hn
          simp only [upd] at hn
          split at hn
          · rename_i e
            cases hn
            refine ⟨r, e ▸ hq, ?_⟩
            rw [← ok2.len]; simp
          · obtain ⟨r', a1, a2⟩ := ok2.cache q' n hn
            exact ⟨r', a1, getElem?_prefix pf a2⟩
        · exact ok2.acache
      · rw [← ok2.len]; simp
    intro x p r s src henc hrk ok
    rcases henc with ⟨h, hq⟩ | ⟨q, h, hq⟩
    · obtain ⟨s', src', n, e, rest⟩ := grp r _ s src hq hrk ok
      exact ⟨s', src', n, by simp only [readObj, h, e], rest⟩
    · cases hc : s.cache q with
      | some n =>
        obtain ⟨r', a1, a2⟩ := ok.cache q n hc
        have := hinj r r' q hq a1
        subst this
        exact ⟨s, src, n, by simp only [readObj, h, hc], ok, List.prefix_rfl, a2⟩
      | none =>
        obtain ⟨s', src', n, e, rest⟩ := grp r q s src hq hrk ok
        exact ⟨s', src', n, by simp only [readObj, h, hc, e], rest⟩

/-- **C32** (any order): a graph without reference cycles is read back with equal values in whatever
order the classes read their fields: every object read is the copy of one original, with the same tag
and the same values of all its fields, and its references lead to copies of the originals' references.
Missing for the full claim: that an object is copied only once, which needs the writing order. -/
theorem C32_any_order_partial {H : Nat → Obj V A T} {schema : T → List (String × Kind)}
    {rank : Nat → Nat} {val : Nat → A} {reg : T → Bool} (hreg : ∀ r, reg (H r).tag)
    (hnm : ∀ r, ((H r).fields.map (·.1)).Nodup) (hrd : Reads H schema)
    (hac : ∀ r, ∀ f ∈ (H r).fields, ∀ r', Refers f.2 r' → rank r' < rank r)
    (hv : ∀ r, ∀ f ∈ (H r).fields, ∀ a v, f.2 = .arr a v → v = val a) (R root : Nat)
    (hR : rank root ≤ R) (hroot : "arrays" ∉ (H root).fields.map (·.1)) :
    ∃ w s gs fs src, writeRoot H reg R root = .ok w ∧
      readRoot w.file schema reg R (H root).tag = .ok (s, gs) ∧
      fs.Perm (H root).fields ∧ List.Forall₂ (FieldVal src) fs gs ∧
      src.length = s.objs.length ∧
      (∀ (n r : Nat), src[n]? = some r → ∃ o, s.objs[n]? = some o ∧ Copy H src o r) := by
  obtain ⟨w, hw⟩ := C32_write_succeeds hreg hac R root hR
  have inv : Inv H val (newWriter : Writer V A T) [] := by
    constructor <;> intros <;> simp_all [newWriter]
  have hf : ∀ name ∈ (H root).fields.map (·.1), Fresh (newWriter : Writer V A T) [.field name] := by
    intro name hn q hq
    refine ⟨?_, rfl, ?_⟩
    · simp only [newWriter, addLink, upd]
      rw [if_neg]
      rintro rfl
      refine suffix_cons_ne (x := .field name) (y := .field "arrays") (p := []) ?_ hq
        List.suffix_rfl
      intro e
      simp only [Seg.field.injEq] at e
      exact hroot (e ▸ hn)
    · simp only [newWriter, addLink, upd]
      rw [if_neg]
      rintro rfl
      exact not_suffix_self _ _ hq
  obtain ⟨i2, e2, g2, n2, _⟩ := winv_fields (winv_obj reg hnm hv R) (writeObj_frame H reg R) []
    (H root).fields _ w hw (hnm root) hf inv (hv root)
  have hst : ∀ r q, w.objs r = some q → Stored H w.file w.objs r q := by
    intro r q hq
    rcases i2.done r q hq with hs | hs
    · rcases n2 r q hq with h | h
      · simp [newWriter] at h
      · -- the root group itself is never an object's group
        have : q = [] := List.suffix_nil.mp hs
        subst this
        have hg := i2.group r [] hq
        have hk : ∀ (fs : List (String × Field V A)) (u u' : Writer V A T),
            fs.foldlM (writeField (writeObj H reg R) []) u = .ok u' →
            u'.file.links [] = u.file.links [] := by
          intro fs
          induction fs with
          | nil => intro u u' h; cases h; rfl
          | cons f fs ih' =>
            intro u u' h
            rw [List.foldlM_cons] at h
            cases h1 : writeField (writeObj H reg R) [] u f with
            | error e => rw [h1] at h; cases h
            | ok u1 =>
              rw [h1] at h
              rw [ih' _ _ h]
              exact (writeField_frame (writeObj_frame H reg R) _ f u u1 h1).links _ (not_suffix_self _ _)
        rw [hk _ _ _ hw] at hg
        simp [newWriter, addLink, upd] at hg
    · exact hs
  obtain ⟨fs, hperm, hord⟩ := hrd root
  obtain ⟨s, src, gs, e, ok, _, hgs⟩ := rsim_fields (rsim_obj hreg hrd hac hst i2.inj R) [] fs
    (schema (H root).tag) hord newReader [] (fun f h => e2 f (hperm.mem_iff.mp h))
    (fun f hf r' hr' => by have := hac root f (hperm.mem_iff.mp hf) r' hr'; omega)
    ⟨rfl, by simp, by simp [newReader], by simp [newReader]⟩
  exact ⟨w, s, gs, fs, src, hw, e, hperm, hgs, ok.len, ok.copy⟩

end Verif.Io
