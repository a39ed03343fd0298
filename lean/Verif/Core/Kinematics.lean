import Verif.Np
import Mathlib.Algebra.Group.Basic
import Mathlib.Algebra.Group.Int.Defs
import Mathlib.Algebra.Group.TypeTags.Basic

/-!
# C30: cached kinematics of coordinate frames

`hermespy/core/transformation.py` 501-784.  Frames are numbered; poses are elements of an arbitrary group
(the homogeneous rigid transformations of C28 form one).  Python's recursion limit is the number
`R`; running out of it is a `RecursionError`.
-/

namespace Verif.Core.Kin

/-- Content of the `forwards_transformation` cache.  For a frame without base the cached object *is* the
pose object (`return self.pose`, line 707), so in-place changes of the pose show through. -/
inductive Cached (G : Type) where
  | own (g : G)
  | aliasPose

/-- All frames. -/
structure State (G : Type) where
  /-- `TransformableBase` instances, 570-584 -/
  root : Nat → Bool
  /-- `__pose` -/
  pose : Nat → G
  /-- `__base` -/
  base : Nat → Option Nat
  /-- `__linked_frames`, a set -/
  links : Nat → List Nat
  /-- `forwards_transformation` in `__dict__` -/
  fwd : Nat → Option (Cached G)
  /-- `backwards_transformation` in `__dict__` -/
  bwd : Nat → Option G

def upd {α : Type} (f : Nat → α) (i : Nat) (v : α) : Nat → α := fun j => if j = i then v else f j

section model
variable {G : Type} [Group G]

/-- New frames: no base, no links, nothing cached, `Transformable.__init__`, 596-609. -/
def init (root : Nat → Bool) (pose : Nat → G) : State G where
  root := root
  pose := pose
  base := fun _ => none
  links := fun _ => []
  fwd := fun _ => none
  bwd := fun _ => none

/-- `del self.forwards_transformation`, `del self.backwards_transformation`, 776-781. -/
def drop (st : State G) (i : Nat) : State G :=
  { st with
    fwd := upd st.fwd i none
    bwd := upd st.bwd i none }

/-- `Transformable._kinematics_updated`, 775-784. -/
def clear : Nat → Nat → State G → Except PyErr (State G)
  | 0, _, _ => .error .recursion
  | R + 1, i, st => ((drop st i).links i).foldlM (fun s j => clear R j s) (drop st i)

mutual
/-- `Transformable.set_base`, 657-668, and `TransformableBase.set_base`, 582-584. -/
def setBase : Nat → Nat → Option Nat → State G → Except PyErr (State G)
  | 0, _, _, _ => .error .recursion
  | R + 1, i, b, st =>
    if st.root i then (if b = none then .ok st else .error .runtime)
    else if st.base i = b then .ok st
    else
      match (match st.base i with
        | none => Except.ok st
        | some o => removeLink R o i false st) with
      | .error e => .error e
      | .ok st1 =>
        match clear R i { st1 with base := upd st1.base i b } with
        | .error e => .error e
        | .ok st2 =>
          match b with
          | none => .ok st2
          | some n => addLink R n i st2

/-- `TransformableLink.remove_link`, 550-569. -/
def removeLink : Nat → Nat → Nat → Bool → State G → Except PyErr (State G)
  | 0, _, _, _, _ => .error .recursion
  | R + 1, i, j, force, st =>
    if j ∈ st.links i then
      setBase R j none { st with links := upd st.links i ((st.links i).filter (· ≠ j)) }
    else if force then .error .runtime else .ok st

/-- `TransformableLink.add_link`, 540-548. -/
def addLink : Nat → Nat → Nat → State G → Except PyErr (State G)
  | 0, _, _, _ => .error .recursion
  | R + 1, i, j, st =>
    setBase R j (some i)
      { st with links := upd st.links i (if j ∈ st.links i then st.links i else j :: st.links i) }
end

/-- `pose` setter 699-702, also `position` and `orientation` setters 622-636 and 650-655, which modify
the pose in place. -/
def setPose (R i : Nat) (g : G) (st : State G) : Except PyErr (State G) :=
  clear R i { st with pose := upd st.pose i g }

/-- `Transformable.lookat`, 756-773: modifies the pose in place and does not notify. -/
def lookat (i : Nat) (g : G) (st : State G) : State G := { st with pose := upd st.pose i g }

/-- Read of the cached property `forwards_transformation`, 704-711 and 573-576. -/
def readF : Nat → Nat → State G → Except PyErr (G × State G)
  | 0, _, _ => .error .recursion
  | R + 1, i, st =>
    if st.root i then .ok (1, st)
    else match st.fwd i with
      | some (.own g) => .ok (g, st)
      | some .aliasPose => .ok (st.pose i, st)
      | none =>
        match st.base i with
        | none => .ok (st.pose i, { st with fwd := upd st.fwd i (some .aliasPose) })
        | some k =>
          match readF R k st with
          | .error e => .error e
          | .ok (g, st') =>
            .ok (g * st'.pose i, { st' with fwd := upd st'.fwd i (some (.own (g * st'.pose i))) })

/-- Read of the cached property `backwards_transformation`, 713-722. -/
def readB (R i : Nat) (st : State G) : Except PyErr (G × State G) :=
  match st.bwd i with
  | some b => .ok (b, st)
  | none =>
    match readF R i st with
    | .error e => .error e
    | .ok (g, st') => .ok (g⁻¹, { st' with bwd := upd st'.bwd i (some g⁻¹) })

/-- User-visible operations. -/
inductive Op (G : Type) where
  | pose (i : Nat) (g : G)
  | setBase (i : Nat) (b : Option Nat)
  | addLink (i j : Nat)
  | removeLink (i j : Nat)
  | readF (i : Nat)
  | readB (i : Nat)
  | lookat (i : Nat) (g : G)

/-- One operation.  `TransformableBase` has neither pose nor transformations to read back, and is not an
admissible argument of `add_link`. -/
def step (R : Nat) (st : State G) : Op G → Except PyErr (State G)
  | .pose i g => if st.root i then .error .attribute else setPose R i g st
  | .setBase i b => setBase R i b st
  | .addLink i j => if st.root j then .error .type else addLink R i j st
  | .removeLink i j => removeLink R i j true st
  | .readF i => (readF R i st).map (·.2)
  | .readB i => if st.root i then .error .attribute else (readB R i st).map (·.2)
  | .lookat i g => if st.root i then .error .attribute else .ok (lookat i g st)

/-- A history; errors other than `RecursionError` are caught by the caller and leave the state as it
was. -/
def run (R : Nat) : State G → List (Op G) → Except PyErr (State G)
  | st, [] => .ok st
  | st, op :: ops =>
    match step R st op with
    | .ok st' => run R st' ops
    | .error .recursion => .error .recursion
    | .error _ => run R st ops

/-! ### Specification -/

/-- Product of the current poses from the root of the base chain down to a frame. -/
inductive Global (st : State G) : Nat → G → Prop where
  | root {i} : st.root i = true → Global st i 1
  | top {i} : st.root i = false → st.base i = none → Global st i (st.pose i)
  | link {i k g} : st.root i = false → st.base i = some k → Global st k g → Global st i (g * st.pose i)

/-- The product is unique. -/
theorem Global.unique {st : State G} {i : Nat} {g h : G} (hg : Global st i g) (hh : Global st i h) :
    g = h := by
  induction hg generalizing h with
  | root hr => cases hh <;> simp_all
  | top hr hb => cases hh <;> simp_all
  | link hr hb _ ih =>
    cases hh with
    | root hr' => simp_all
    | top hr' hb' => simp_all
    | link hr' hb' hk =>
      rw [hb] at hb'
      cases hb'
      rw [ih hk]

/-- Value held by the forwards cache. -/
def fwdVal (st : State G) (i : Nat) : Option G :=
  match st.fwd i with
  | none => none
  | some (.own g) => some g
  | some .aliasPose => some (st.pose i)

/-- Everything cached is current. -/
def Coherent (st : State G) : Prop :=
  (∀ i g, fwdVal st i = some g → Global st i g) ∧
  ∀ i b, st.bwd i = some b → st.root i = true ∨ Global st i b⁻¹

/-- Links and bases agree, except possibly for frame `x`. -/
def LinkedEx (st : State G) (x : Option Nat) : Prop :=
  ∀ j k, some j ≠ x → (st.base j = some k ↔ j ∈ st.links k)

def Inv (st : State G) : Prop :=
  Coherent st ∧ LinkedEx st none ∧ ∀ i, st.root i = true → st.base i = none

/-! ### Clearing -/

/-- `j` is reached from `i` along bases, without passing `i`. -/
inductive Below (base : Nat → Option Nat) (i : Nat) : Nat → Prop where
  | refl : Below base i i
  | step {j k} : j ≠ i → base j = some k → Below base i k → Below base i j

/-- `j` is reached from `i` along links. -/
inductive Reach (links : Nat → List Nat) : Nat → Nat → Prop where
  | refl {i} : Reach links i i
  | step {i k j} : k ∈ links i → Reach links k j → Reach links i j

theorem Reach.tail {links : Nat → List Nat} {i j k : Nat} (h : Reach links i k) (hj : j ∈ links k) :
    Reach links i j := by
  induction h with
  | refl => exact .step hj .refl
  | step h1 _ ih => exact .step h1 (ih hj)

/-- Only caches differ, and those of `b` are those of `a` or dropped. -/
structure Dropped (a b : State G) : Prop where
  root : b.root = a.root
  pose : b.pose = a.pose
  base : b.base = a.base
  links : b.links = a.links
  fwd : ∀ j, b.fwd j = none ∨ b.fwd j = a.fwd j
  bwd : ∀ j, b.bwd j = none ∨ b.bwd j = a.bwd j

theorem Dropped.refl (a : State G) : Dropped a a := ⟨rfl, rfl, rfl, rfl, fun _ => .inr rfl, fun _ => .inr rfl⟩

theorem Dropped.trans {a b c : State G} (h : Dropped a b) (h' : Dropped b c) : Dropped a c := by
  refine ⟨h'.root.trans h.root, h'.pose.trans h.pose, h'.base.trans h.base, h'.links.trans h.links,
    fun j => ?_, fun j => ?_⟩
  · rcases h'.fwd j with e | e
    · exact .inl e
    · rw [e]; exact h.fwd j
  · rcases h'.bwd j with e | e
    · exact .inl e
    · rw [e]; exact h.bwd j

theorem Dropped.none_of {a b : State G} (h : Dropped a b) {j : Nat} (h1 : a.fwd j = none)
    (h2 : a.bwd j = none) : b.fwd j = none ∧ b.bwd j = none :=
  ⟨(h.fwd j).elim id (fun e => e.trans h1), (h.bwd j).elim id (fun e => e.trans h2)⟩

theorem drop_dropped (st : State G) (i : Nat) :
    Dropped st (drop st i) ∧ (drop st i).fwd i = none ∧ (drop st i).bwd i = none := by
  refine ⟨⟨rfl, rfl, rfl, rfl, fun j => ?_, fun j => ?_⟩, by simp [drop, upd], by simp [drop, upd]⟩ <;>
    simp only [drop, upd] <;> split <;> simp

theorem clear_spec (R : Nat) : ∀ (i : Nat) (st st' : State G), clear R i st = .ok st' →
    Dropped st st' ∧ ∀ j, Reach st.links i j → st'.fwd j = none ∧ st'.bwd j = none := by
  induction R with
  | zero => intro i st st' h; exact absurd h (by simp [clear])
  | succ R ih =>
    intro i st st' h
    rw [clear] at h
    have key : ∀ (l : List Nat) (s s' : State G), s.links = st.links →
        l.foldlM (fun s j => clear R j s) s = .ok s' →
        Dropped s s' ∧ ∀ k ∈ l, ∀ j, Reach st.links k j → s'.fwd j = none ∧ s'.bwd j = none := by
      intro l
      induction l with
      | nil =>
        intro s s' _ h
        cases h
        exact ⟨.refl _, fun k hk => absurd hk (by simp)⟩
      | cons x l ihl =>
        intro s s' hl h
        rw [List.foldlM_cons] at h
        cases hx : clear R x s with
        | error e => rw [hx] at h; exact absurd h (by simp [bind, Except.bind])
        | ok s1 =>
          rw [hx] at h
          obtain ⟨d1, r1⟩ := ih x s s1 hx
          obtain ⟨d2, r2⟩ := ihl s1 s' (d1.links.trans hl) h
          refine ⟨d1.trans d2, fun k hk j hj => ?_⟩
          rcases List.mem_cons.mp hk with rfl | hk
          · have := r1 j (by rw [hl]; exact hj)
            exact d2.none_of this.1 this.2
          · exact r2 k hk j hj
    obtain ⟨d0, f0, b0⟩ := drop_dropped st i
    obtain ⟨d1, r1⟩ := key _ (drop st i) st' d0.links h
    refine ⟨d0.trans d1, fun j hj => ?_⟩
    cases hj with
    | refl => exact d1.none_of f0 b0
    | step hk hj => exact r1 _ (by rw [d0.links]; exact hk) j hj

theorem Below.reach {st : State G} {i j : Nat} (hl : LinkedEx st (some i)) (h : Below st.base i j) :
    Reach st.links i j := by
  induction h with
  | refl => exact .refl
  | step hne hb _ ih => exact ih.tail ((hl _ _ (by simpa using hne)).mp hb)

/-- Changing pose and base of frame `i` and then notifying it keeps all caches current. -/
theorem coherent_clear {st stm st' : State G} {R i : Nat} (hc : Coherent st)
    (hroot : stm.root = st.root) (hpose : ∀ j, j ≠ i → stm.pose j = st.pose j)
    (hbase : ∀ j, j ≠ i → stm.base j = st.base j) (hf : stm.fwd = st.fwd) (hb : stm.bwd = st.bwd)
    (hl : LinkedEx stm (some i)) (h : clear R i stm = .ok st') : Coherent st' := by
  obtain ⟨d, r⟩ := clear_spec R i stm st' h
  have keep : ∀ j g, ¬ Below stm.base i j → Global st j g → Global st' j g := by
    intro j g hn hg
    induction hg with
    | root hr => exact .root (by rw [d.root, hroot]; exact hr)
    | @top j hr hb0 =>
      have hji : j ≠ i := by rintro rfl; exact hn .refl
      have : st.pose j = st'.pose j := by rw [d.pose, hpose j hji]
      rw [this]
      exact .top (by rw [d.root, hroot]; exact hr) (by rw [d.base, hbase j hji]; exact hb0)
    | @link j k g hr hbk _ ih =>
      have hji : j ≠ i := by rintro rfl; exact hn .refl
      have hbm : stm.base j = some k := by rw [hbase j hji]; exact hbk
      have : st.pose j = st'.pose j := by rw [d.pose, hpose j hji]
      rw [this]
      refine .link (by rw [d.root, hroot]; exact hr) (by rw [d.base]; exact hbm) (ih fun hB => ?_)
      exact hn (.step hji hbm hB)
  constructor
  · intro j g hg
    by_cases hB : Below stm.base i j
    · have := (r j (hB.reach hl)).1
      simp [fwdVal, this] at hg
    · refine keep j g hB (hc.1 j g ?_)
      have hji : j ≠ i := by rintro rfl; exact hB .refl
      rcases d.fwd j with e | e
      · simp [fwdVal, e] at hg
      · rw [hf] at e
        unfold fwdVal at hg ⊢
        rw [e] at hg
        rw [← hg]
        have : st'.pose j = st.pose j := by rw [d.pose, hpose j hji]
        rw [this]
  · intro j b hjb
    by_cases hB : Below stm.base i j
    · have := (r j (hB.reach hl)).2
      rw [this] at hjb
      exact absurd hjb (by simp)
    · rcases d.bwd j with e | e
      · rw [e] at hjb; exact absurd hjb (by simp)
      · rw [e, hb] at hjb
        rcases hc.2 j b hjb with hr | hG
        · exact .inl (by rw [d.root, hroot]; exact hr)
        · exact .inr (keep j _ hB hG)

/-! ### Base changes -/

theorem removeLink_absent {R o i : Nat} {st st' : State G} (hi : i ∉ st.links o)
    (h : removeLink R o i false st = .ok st') : st' = st := by
  cases R with
  | zero => simp [removeLink] at h
  | succ R => rw [removeLink, if_neg hi] at h; simp at h; exact h.symm

theorem addLink_present {R n i : Nat} {st st' : State G} (hr : st.root i = false)
    (hb : st.base i = some n) (h : addLink R n i st = .ok st') :
    st' = { st with links := upd st.links n (if i ∈ st.links n then st.links n else i :: st.links n) } := by
  cases R with
  | zero => simp [addLink] at h
  | succ R =>
    rw [addLink] at h
    cases R with
    | zero => simp [setBase] at h
    | succ R =>
      rw [setBase] at h
      simp only [hr, hb] at h
      simp at h
      exact h.symm

theorem setBase_detach {R i o : Nat} {st st' : State G} (hr : st.root i = false)
    (hb : st.base i = some o) (hi : i ∉ st.links o) (h : setBase R i none st = .ok st') :
    ∃ R', clear R' i { st with base := upd st.base i none } = .ok st' := by
  cases R with
  | zero => simp [setBase] at h
  | succ R =>
    rw [setBase] at h
    simp only [hr, hb] at h
    simp only [Bool.false_eq_true, if_false, reduceCtorEq] at h
    cases h1 : removeLink R o i false st with
    | error e => rw [h1] at h; simp at h
    | ok st1 =>
      have := removeLink_absent hi h1
      subst this
      rw [h1] at h
      dsimp only at h
      cases h2 : clear R i { st1 with base := upd st1.base i none } with
      | error e => rw [h2] at h; simp at h
      | ok st2 =>
        rw [h2] at h
        dsimp only at h
        exact ⟨R, by rw [h2, h]⟩

/-- The state with frame `i` detached from its base `o`. -/
def detached (st : State G) (o i : Nat) : State G :=
  { st with
    links := upd st.links o ((st.links o).filter (· ≠ i))
    base := upd st.base i none }

theorem removeLink_present {R o i : Nat} {force : Bool} {st st' : State G} (hr : st.root i = false)
    (hb : st.base i = some o) (hi : i ∈ st.links o) (h : removeLink R o i force st = .ok st') :
    ∃ R', clear R' i (detached st o i) = .ok st' := by
  cases R with
  | zero => simp [removeLink] at h
  | succ R =>
    rw [removeLink, if_pos hi] at h
    exact setBase_detach (st := { st with links := upd st.links o ((st.links o).filter (· ≠ i)) })
      hr hb (by simp [upd]) h

theorem LinkedEx.weaken {st : State G} {x : Option Nat} (h : LinkedEx st none) : LinkedEx st x :=
  fun j k _ => h j k (by simp)

theorem Dropped.linked {a b : State G} (d : Dropped a b) {x : Option Nat} (h : LinkedEx a x) :
    LinkedEx b x := by
  intro j k hx
  rw [d.base, d.links]
  exact h j k hx

theorem Dropped.rooted {a b : State G} (d : Dropped a b)
    (h : ∀ i, a.root i = true → a.base i = none) : ∀ i, b.root i = true → b.base i = none := by
  intro i hi
  rw [d.base]
  exact h i (by rw [← d.root]; exact hi)

/-- What holds while frame `i` is being moved to base `b`. -/
def Moving (st : State G) (i : Nat) (b : Option Nat) : Prop :=
  Coherent st ∧ LinkedEx st (some i) ∧ (∀ k, st.base i = some k → i ∈ st.links k) ∧
  (∀ k, i ∈ st.links k → st.base i = some k ∨ b = some k) ∧ ∀ j, st.root j = true → st.base j = none

theorem Inv.moving {st : State G} (h : Inv st) (i : Nat) (b : Option Nat) : Moving st i b :=
  ⟨h.1, h.2.1.weaken, fun k hk => (h.2.1 i k (by simp)).mp hk,
    fun k hk => .inl ((h.2.1 i k (by simp)).mpr hk), h.2.2⟩

theorem detach_moving {R o i : Nat} {force : Bool} {b : Option Nat} {st st' : State G}
    (hM : Moving st i b) (hr : st.root i = false) (hb : st.base i = some o)
    (h : removeLink R o i force st = .ok st') :
    Moving st' i b ∧ st'.base = upd st.base i none ∧ st'.root = st.root ∧ st'.pose = st.pose ∧
      st'.links = upd st.links o ((st.links o).filter (· ≠ i)) := by
  obtain ⟨hc, hl, hli, hli', hro⟩ := hM
  obtain ⟨R', h'⟩ := removeLink_present hr hb (hli o hb) h
  have hl' : LinkedEx (detached st o i) (some i) := by
    intro j k hj
    have hji : j ≠ i := by simpa using hj
    have h := hl j k hj
    simp only [detached, upd, hji, if_false, h]
    split
    · rename_i hk; subst hk; simp [hji]
    · rfl
  obtain ⟨d, _⟩ := clear_spec R' i _ st' h'
  refine ⟨⟨?_, d.linked hl', ?_, ?_, d.rooted ?_⟩, d.base, d.root, d.pose, d.links⟩
  · refine coherent_clear hc (stm := detached st o i) rfl (fun _ _ => rfl) (fun j hj => ?_) rfl rfl hl' h'
    simp [detached, upd, hj]
  · intro k hk
    rw [d.base] at hk
    simp [detached, upd] at hk
  · intro k hk
    rw [d.links] at hk
    simp only [detached, upd] at hk
    split at hk
    · simp at hk
    · rename_i hko
      rcases hli' k hk with h1 | h1
      · rw [hb] at h1; exact absurd (Option.some.inj h1).symm hko
      · exact .inr h1
  · intro j hj
    simp only [detached, upd]
    split
    · rfl
    · exact hro j hj

theorem Moving.inv {st : State G} {i : Nat} {b : Option Nat} (h : Moving st i b)
    (hb : st.base i = b) : Inv st := by
  refine ⟨h.1, fun j k _ => ?_, h.2.2.2.2⟩
  by_cases hj : j = i
  · subst hj
    refine ⟨h.2.2.1 k, fun hk => ?_⟩
    rcases h.2.2.2.1 k hk with h' | h'
    · exact h'
    · rw [hb, h']
  · exact h.2.1 j k (by simpa using hj)

theorem upd_self {α : Type} (f : Nat → α) (i : Nat) (v : α) (h : f i = v) : upd f i v = f := by
  funext j; simp only [upd]; split
  · rename_i hj; rw [hj, h]
  · rfl

/-- `set_base` ends in a consistent state, and the new base is the one given. -/
theorem setBase_inv {R i : Nat} {b : Option Nat} {st st' : State G} (hM : Moving st i b)
    (h : setBase R i b st = .ok st') :
    Inv st' ∧ st'.base = upd st.base i b ∧ st'.root = st.root ∧ st'.pose = st.pose := by
  cases R with
  | zero => simp [setBase] at h
  | succ R =>
    rw [setBase] at h
    by_cases hr : st.root i = true
    · rw [if_pos hr] at h
      split at h
      · rename_i hbn
        cases h
        have hbi := hM.2.2.2.2 i hr
        exact ⟨hM.inv (hbi.trans hbn.symm), (upd_self _ _ _ (hbi.trans hbn.symm)).symm, rfl, rfl⟩
      · exact absurd h (by simp)
    · rw [if_neg hr] at h
      have hr' : st.root i = false := by simpa using hr
      by_cases hb : st.base i = b
      · rw [if_pos hb] at h
        cases h
        exact ⟨hM.inv hb, (upd_self _ _ _ hb).symm, rfl, rfl⟩
      · rw [if_neg hb] at h
        obtain ⟨st1, hM1, hb1, hr1, hp1, hi1, h1⟩ : ∃ st1 : State G, Moving st1 i b ∧
            st1.base = upd st.base i none ∧ st1.root = st.root ∧ st1.pose = st.pose ∧
            st1.base i = none ∧
            (match clear R i { st1 with base := upd st1.base i b } with
              | Except.error e => Except.error e
              | Except.ok st2 =>
                match b with
                | none => Except.ok st2
                | some n => addLink R n i st2) = .ok st' := by
          cases hbi : st.base i with
          | none =>
            simp only [hbi] at h
            exact ⟨st, hM, (upd_self _ _ _ hbi).symm, rfl, rfl, hbi, h⟩
          | some o =>
            simp only [hbi] at h
            cases hrl : removeLink R o i false st with
            | error e => rw [hrl] at h; simp at h
            | ok st1 =>
              rw [hrl] at h
              obtain ⟨a, b', c, d, _⟩ := detach_moving hM hr' hbi hrl
              exact ⟨st1, a, b', c, d, by rw [b']; simp [upd], h⟩
        have hub : upd st1.base i b = upd st.base i b := by
          rw [hb1]; funext j; simp only [upd]; split <;> rfl
        obtain ⟨hc1, hl1, _, hli1, hro1⟩ := hM1
        have hlm : LinkedEx { st1 with base := upd st1.base i b } (some i) := by
          intro j k hj
          have hji : j ≠ i := by simpa using hj
          simp only [upd, hji, if_false]
          exact hl1 j k hj
        cases hcl : clear R i { st1 with base := upd st1.base i b } with
        | error e => rw [hcl] at h1; simp at h1
        | ok st2 =>
          rw [hcl] at h1
          obtain ⟨d, _⟩ := clear_spec R i _ st2 hcl
          have hc2 : Coherent st2 :=
            coherent_clear hc1 (stm := { st1 with base := upd st1.base i b }) rfl (fun _ _ => rfl)
              (fun j hj => by simp [upd, hj]) rfl rfl hlm hcl
          have hl2 := d.linked hlm
          have hro2 : ∀ j, st2.root j = true → st2.base j = none := by
            apply d.rooted
            intro j hj
            have hji : j ≠ i := by
              rintro rfl
              have : st1.root j = true := hj
              rw [hr1, hr'] at this
              exact absurd this (by simp)
            simp only [upd, hji, if_false]
            exact hro1 j hj
          have hb2 : st2.base = upd st.base i b := by rw [d.base]; exact hub
          have hni : ∀ k, i ∈ st2.links k → b = some k := by
            intro k hk
            rw [d.links] at hk
            rcases hli1 k hk with h' | h'
            · rw [hi1] at h'; exact absurd h' (by simp)
            · exact h'
          cases b with
          | none =>
            cases h1
            refine ⟨⟨hc2, fun j k _ => ?_, hro2⟩, hb2, by rw [d.root]; exact hr1,
              by rw [d.pose]; exact hp1⟩
            by_cases hji : j = i
            · subst hji
              constructor
              · intro hh; rw [hb2] at hh; simp [upd] at hh
              · intro hh; exact absurd (hni k hh) (by simp)
            · exact hl2 j k (by simpa using hji)
          | some n =>
            dsimp only at h1
            have hbi2 : st2.base i = some n := by rw [hb2]; simp [upd]
            have hri2 : st2.root i = false := by
              rw [d.root]; show st1.root i = false; rw [hr1]; exact hr'
            have he := addLink_present hri2 hbi2 h1
            subst he
            refine ⟨⟨?_, fun j k _ => ?_, hro2⟩, hb2, by show st2.root = _; rw [d.root]; exact hr1,
              by show st2.pose = _; rw [d.pose]; exact hp1⟩
            · have gl : ∀ (l : Nat → List Nat) (j : Nat) (g : G), Global st2 j g →
                  Global { st2 with links := l } j g := by
                intro l j g hg
                induction hg with
                | root hr => exact .root hr
                | top hr hb => exact .top (st := { st2 with links := l }) hr hb
                | link hr hb _ ih => exact .link (st := { st2 with links := l }) hr hb ih
              exact ⟨fun j g hg => gl _ j g (hc2.1 j g hg),
                fun j b' hb' => (hc2.2 j b' hb').imp id (gl _ j _)⟩
            · show st2.base j = some k ↔
                j ∈ upd st2.links n (if i ∈ st2.links n then st2.links n else i :: st2.links n) k
              by_cases hji : j = i
              · subst hji
                rw [hbi2]
                simp only [upd]
                split
                · rename_i hk; subst hk
                  split
                  · rename_i hm; simp [hm]
                  · simp
                · rename_i hk
                  constructor
                  · intro hh; exact absurd (Option.some.inj hh).symm hk
                  · intro hh; exact hni k hh
              · rw [hl2 j k (by simpa using hji)]
                simp only [upd]
                split
                · rename_i hk; subst hk
                  split
                  · rfl
                  · simp [hji]
                · rfl

/-- `add_link` behaves like `set_base` on the added frame. -/
theorem addLink_inv {R i j : Nat} {st st' : State G} (hI : Inv st) (h : addLink R i j st = .ok st') :
    Inv st' ∧ st'.base = upd st.base j (some i) ∧ st'.root = st.root ∧ st'.pose = st.pose := by
  cases R with
  | zero => simp [addLink] at h
  | succ R =>
    rw [addLink] at h
    refine setBase_inv (st := { st with
      links := upd st.links i (if j ∈ st.links i then st.links i else j :: st.links i) }) ⟨?_, ?_, ?_, ?_, hI.2.2⟩ h
    · have gl : ∀ (l : Nat → List Nat) (j : Nat) (g : G), Global st j g →
          Global { st with links := l } j g := by
        intro l j g hg
        induction hg with
        | root hr => exact .root hr
        | top hr hb => exact .top (st := { st with links := l }) hr hb
        | link hr hb _ ih => exact .link (st := { st with links := l }) hr hb ih
      exact ⟨fun j g hg => gl _ j g (hI.1.1 j g hg), fun j b' hb' => (hI.1.2 j b' hb').imp id (gl _ j _)⟩
    · intro x k hx
      have hxj : x ≠ j := by simpa using hx
      show st.base x = some k ↔ x ∈ upd st.links i (if j ∈ st.links i then st.links i else j :: st.links i) k
      rw [hI.2.1 x k (by simp)]
      simp only [upd]
      split
      · rename_i hk; subst hk
        split
        · rfl
        · simp [hxj]
      · rfl
    · intro k hk
      have := (hI.2.1 j k (by simp)).mp hk
      show j ∈ upd st.links i _ k
      simp only [upd]
      split
      · rename_i hk; subst hk; rw [if_pos this]; exact this
      · exact this
    · intro k hk
      change j ∈ upd st.links i _ k at hk
      simp only [upd] at hk
      split at hk
      · rename_i h; exact .inr (by rw [h])
      · exact .inl ((hI.2.1 j k (by simp)).mpr hk)

/-- `remove_link` detaches the removed frame. -/
theorem removeLink_inv {R i j : Nat} {st st' : State G} (hI : Inv st)
    (h : removeLink R i j true st = .ok st') :
    Inv st' ∧ st'.base = upd st.base j none ∧ st'.root = st.root ∧ st'.pose = st.pose := by
  have hm : j ∈ st.links i := by
    cases R with
    | zero => simp [removeLink] at h
    | succ R =>
      rw [removeLink] at h
      split at h
      · assumption
      · simp at h
  have hb : st.base j = some i := (hI.2.1 j i (by simp)).mpr hm
  have hr : st.root j = false := by
    by_contra hh
    have := hI.2.2 j (by simpa using hh)
    rw [hb] at this
    exact absurd this (by simp)
  obtain ⟨hM, a, b, c, _⟩ := detach_moving (hI.moving j none) hr hb h
  exact ⟨hM.inv (by rw [a]; simp [upd]), a, b, c⟩

/-! ### Reads -/

/-- Equal up to caches. -/
structure SameFrames (a b : State G) : Prop where
  root : b.root = a.root
  pose : b.pose = a.pose
  base : b.base = a.base
  links : b.links = a.links

theorem SameFrames.global {a b : State G} (h : SameFrames a b) {i : Nat} {g : G} (hg : Global a i g) :
    Global b i g := by
  induction hg with
  | root hr => exact .root (by rw [h.root]; exact hr)
  | @top i hr hb =>
    rw [show a.pose i = b.pose i by rw [h.pose]]
    exact .top (by rw [h.root]; exact hr) (by rw [h.base]; exact hb)
  | @link i k g hr hb _ ih =>
    rw [show a.pose i = b.pose i by rw [h.pose]]
    exact .link (by rw [h.root]; exact hr) (by rw [h.base]; exact hb) ih

theorem SameFrames.symm {a b : State G} (h : SameFrames a b) : SameFrames b a :=
  ⟨h.root.symm, h.pose.symm, h.base.symm, h.links.symm⟩

theorem readF_spec (R : Nat) : ∀ (i : Nat) (g : G) (st st' : State G), Coherent st →
    readF R i st = .ok (g, st') → Global st i g ∧ Coherent st' ∧ SameFrames st st' := by
  induction R with
  | zero => intro i g st st' _ h; simp [readF] at h
  | succ R ih =>
    intro i g st st' hc h
    rw [readF] at h
    by_cases hr : st.root i = true
    · rw [if_pos hr] at h
      cases h
      exact ⟨.root hr, hc, rfl, rfl, rfl, rfl⟩
    · rw [if_neg hr] at h
      have hr' : st.root i = false := by simpa using hr
      cases hf : st.fwd i with
      | some c =>
        cases c with
        | own g' =>
          simp only [hf] at h
          cases h
          exact ⟨hc.1 i g (by simp [fwdVal, hf]), hc, rfl, rfl, rfl, rfl⟩
        | aliasPose =>
          simp only [hf] at h
          cases h
          exact ⟨hc.1 i _ (by simp [fwdVal, hf]), hc, rfl, rfl, rfl, rfl⟩
      | none =>
        simp only [hf] at h
        cases hb : st.base i with
        | none =>
          simp only [hb] at h
          cases h
          have sf : SameFrames st { st with fwd := upd st.fwd i (some .aliasPose) } := ⟨rfl, rfl, rfl, rfl⟩
          refine ⟨.top hr' hb, ⟨fun j g hg => ?_, fun j b hb' => (hc.2 j b hb').imp id sf.global⟩, sf⟩
          by_cases hj : j = i
          · subst hj
            simp [fwdVal, upd] at hg
            subst hg
            exact sf.global (.top hr' hb)
          · refine sf.global (hc.1 j g ?_)
            simpa [fwdVal, upd, hj] using hg
        | some k =>
          simp only [hb] at h
          cases hk : readF R k st with
          | error e => rw [hk] at h; simp at h
          | ok p =>
            obtain ⟨gk, st1⟩ := p
            rw [hk] at h
            dsimp only at h
            cases h
            obtain ⟨hG, hc1, sf1⟩ := ih k gk st st1 hc hk
            have hGi : Global st i (gk * st1.pose i) := by
              rw [sf1.pose]; exact .link hr' hb hG
            have sf : SameFrames st1 { st1 with fwd := upd st1.fwd i (some (.own (gk * st1.pose i))) } :=
              ⟨rfl, rfl, rfl, rfl⟩
            refine ⟨hGi, ⟨fun j g hg => ?_, fun j b hb' => (hc1.2 j b hb').imp
                (fun h => by exact h) sf.global⟩, ⟨sf1.root, sf1.pose, sf1.base, sf1.links⟩⟩
            by_cases hj : j = i
            · subst hj
              simp [fwdVal, upd] at hg
              subst hg
              exact sf.global (sf1.global hGi)
            · refine sf.global (hc1.1 j g ?_)
              simpa [fwdVal, upd, hj] using hg

theorem readB_spec (R i : Nat) (g : G) (st st' : State G) (hr : st.root i = false) (hc : Coherent st)
    (h : readB R i st = .ok (g, st')) : Global st i g⁻¹ ∧ Coherent st' ∧ SameFrames st st' := by
  unfold readB at h
  cases hb : st.bwd i with
  | some b =>
    simp only [hb] at h
    cases h
    refine ⟨(hc.2 i g hb).resolve_left (by rw [hr]; simp), hc, rfl, rfl, rfl, rfl⟩
  | none =>
    simp only [hb] at h
    cases hf : readF R i st with
    | error e => rw [hf] at h; simp at h
    | ok p =>
      obtain ⟨f, st1⟩ := p
      rw [hf] at h
      dsimp only at h
      cases h
      obtain ⟨hG, hc1, sf1⟩ := readF_spec R i f st st1 hc hf
      have sf : SameFrames st1 { st1 with bwd := upd st1.bwd i (some f⁻¹) } := ⟨rfl, rfl, rfl, rfl⟩
      refine ⟨by rw [inv_inv]; exact hG, ⟨fun j g hg => sf.global (hc1.1 j g hg), fun j b hb' => ?_⟩,
        sf1.root, sf1.pose, sf1.base, sf1.links⟩
      by_cases hj : j = i
      · subst hj
        simp [upd] at hb'
        subst hb'
        exact .inr (by rw [inv_inv]; exact sf.global (sf1.global hG))
      · exact (hc1.2 j b (by simpa [upd, hj] using hb')).imp id sf.global

/-! ### Histories -/

theorem inv_init (root : Nat → Bool) (pose : Nat → G) : Inv (init root pose) := by
  refine ⟨⟨fun i g h => ?_, fun i b h => ?_⟩, fun j k _ => ?_, fun _ _ => rfl⟩
  · simp [init, fwdVal] at h
  · simp [init] at h
  · simp [init]

theorem SameFrames.inv {a b : State G} (h : SameFrames a b) (hc : Coherent b) (ha : Inv a) : Inv b := by
  refine ⟨hc, fun j k hx => ?_, fun i hi => ?_⟩
  · rw [h.base, h.links]; exact ha.2.1 j k hx
  · rw [h.base]; exact ha.2.2 i (by rw [← h.root]; exact hi)

/-- The poses and bases a caller has asked for, without any caching. -/
structure Frames (G : Type) where
  pose : Nat → G
  base : Nat → Option Nat

/-- Effect of an operation that did not raise on what the caller has asked for. -/
def effect (f : Frames G) : Op G → Frames G
  | .pose i g => { f with pose := upd f.pose i g }
  | .setBase i b => { f with base := upd f.base i b }
  | .addLink i j => { f with base := upd f.base j (some i) }
  | .removeLink _ j => { f with base := upd f.base j none }
  | .readF _ => f
  | .readB _ => f
  | .lookat i g => { f with pose := upd f.pose i g }

def isLookat : Op G → Bool
  | .lookat _ _ => true
  | _ => false

/-- Every operation other than `lookat` keeps the caches current and does what was asked. -/
theorem step_inv {R : Nat} {st st' : State G} {op : Op G} (hI : Inv st) (hop : isLookat op = false)
    (h : step R st op = .ok st') :
    Inv st' ∧ st'.root = st.root ∧ st'.pose = (effect ⟨st.pose, st.base⟩ op).pose ∧
      st'.base = (effect ⟨st.pose, st.base⟩ op).base := by
  cases op with
  | pose i g =>
    simp only [step] at h
    split at h
    · exact absurd h (by simp)
    · unfold setPose at h
      obtain ⟨d, _⟩ := clear_spec R i _ st' h
      have hl : LinkedEx { st with pose := upd st.pose i g } none := hI.2.1
      refine ⟨⟨?_, d.linked hl, d.rooted hI.2.2⟩, d.root, d.pose, d.base⟩
      exact coherent_clear hI.1 (stm := { st with pose := upd st.pose i g }) rfl
        (fun j hj => by simp [upd, hj]) (fun _ _ => rfl) rfl rfl hl.weaken h
  | setBase i b =>
    obtain ⟨a, b', c, d⟩ := setBase_inv (hI.moving i b) h
    exact ⟨a, c, d, b'⟩
  | addLink i j =>
    simp only [step] at h
    split at h
    · exact absurd h (by simp)
    · obtain ⟨a, b', c, d⟩ := addLink_inv hI h
      exact ⟨a, c, d, b'⟩
  | removeLink i j =>
    obtain ⟨a, b', c, d⟩ := removeLink_inv hI h
    exact ⟨a, c, d, b'⟩
  | readF i =>
    simp only [step] at h
    cases hr : readF R i st with
    | error e => rw [hr] at h; simp [Except.map] at h
    | ok p =>
      obtain ⟨g, st1⟩ := p
      rw [hr] at h
      simp [Except.map] at h
      subst h
      obtain ⟨_, hc, sf⟩ := readF_spec R i g st st1 hI.1 hr
      exact ⟨sf.inv hc hI, sf.root, sf.pose, sf.base⟩
  | readB i =>
    simp only [step] at h
    split at h
    · exact absurd h (by simp)
    · rename_i hro
      cases hr : readB R i st with
      | error e => rw [hr] at h; simp [Except.map] at h
      | ok p =>
        obtain ⟨g, st1⟩ := p
        rw [hr] at h
        simp [Except.map] at h
        subst h
        obtain ⟨_, hc, sf⟩ := readB_spec R i g st st1 (by simpa using hro) hI.1 hr
        exact ⟨sf.inv hc hI, sf.root, sf.pose, sf.base⟩
  | lookat i g => exact absurd hop (by simp [isLookat])

/-- Executions: which operations were carried out, which were refused. -/
inductive Exec (R : Nat) : State G → List (Op G) → Frames G → State G → Prop where
  | nil {st} : Exec R st [] ⟨st.pose, st.base⟩ st
  | ok {st ops f st' op st''} : Exec R st ops f st' → step R st' op = .ok st'' →
      Exec R st (ops ++ [op]) (effect f op) st''
  | refused {st ops f st' op e} : Exec R st ops f st' → step R st' op = .error e → e ≠ .recursion →
      Exec R st (ops ++ [op]) f st'

/-- Product of poses along the bases the caller has asked for. -/
inductive ChainProduct (root : Nat → Bool) (f : Frames G) : Nat → G → Prop where
  | root {i} : root i = true → ChainProduct root f i 1
  | top {i} : root i = false → f.base i = none → ChainProduct root f i (f.pose i)
  | link {i k g} : root i = false → f.base i = some k → ChainProduct root f k g →
      ChainProduct root f i (g * f.pose i)

theorem global_chain {st : State G} {root : Nat → Bool} {f : Frames G} (hr : st.root = root)
    (hp : st.pose = f.pose) (hb : st.base = f.base) {i : Nat} {g : G} (h : Global st i g) :
    ChainProduct root f i g := by
  subst hr
  induction h with
  | root h => exact .root h
  | @top i h h' => rw [hp]; exact .top h (by rw [← hb]; exact h')
  | @link i k g h h' _ ih => rw [hp]; exact .link h (by rw [← hb]; exact h') ih

theorem exec_inv {R : Nat} {root : Nat → Bool} {pose : Nat → G} {ops : List (Op G)} {f : Frames G}
    {st : State G} (hl : ∀ op ∈ ops, isLookat op = false) (h : Exec R (init root pose) ops f st) :
    Inv st ∧ st.root = root ∧ st.pose = f.pose ∧ st.base = f.base := by
  generalize hs : init root pose = s0 at h
  induction h with
  | nil => subst hs; exact ⟨inv_init root pose, rfl, rfl, rfl⟩
  | @ok ops f st' op st'' h1 h2 ih =>
    obtain ⟨a, b, c, d⟩ := ih (fun op hop => hl op (List.mem_append_left _ hop))
    obtain ⟨a', b', c', d'⟩ := step_inv a (hl op (by simp)) h2
    refine ⟨a', b'.trans b, ?_, ?_⟩
    · rw [c', c, d]
    · rw [d', c, d]
  | @refused ops f st' op e h1 h2 h3 ih =>
    exact ih (fun op hop => hl op (List.mem_append_left _ hop))

/-- C30 for all histories without `lookat`, whatever the shapes of the frame trees and whatever has
been read before: a forwards transformation that can be read is the product of the current poses along
the current chain of bases, and a backwards transformation is its two-sided inverse.  Missing for the
full claim: `lookat`, see `C30_lookat_fails`. -/
theorem C30_reads_current_partial (R : Nat) (root : Nat → Bool) (pose : Nat → G) (ops : List (Op G))
    (f : Frames G) (st : State G) (hl : ∀ op ∈ ops, isLookat op = false)
    (h : Exec R (init root pose) ops f st) (i : Nat) :
    (∀ g st', readF R i st = .ok (g, st') → ChainProduct root f i g) ∧
    (root i = false → ∀ b st', readB R i st = .ok (b, st') →
      ∃ g, ChainProduct root f i g ∧ b * g = 1 ∧ g * b = 1) := by
  obtain ⟨hI, hr, hp, hb⟩ := exec_inv hl h
  refine ⟨fun g st' hg => global_chain hr hp hb (readF_spec R i g st st' hI.1 hg).1,
    fun hro b st' hg => ⟨b⁻¹, global_chain hr hp hb
      (readB_spec R i b st st' (by rw [hr]; exact hro) hI.1 hg).1, by simp, by simp⟩⟩

/-- C30: frames list exactly the frames based on them, after any history. -/
theorem C30_links (R : Nat) (root : Nat → Bool) (pose : Nat → G) (ops : List (Op G))
    (f : Frames G) (st : State G) (hl : ∀ op ∈ ops, isLookat op = false)
    (h : Exec R (init root pose) ops f st) (i j : Nat) : j ∈ st.links i ↔ f.base j = some i := by
  obtain ⟨hI, _, _, hb⟩ := exec_inv hl h
  rw [← hb]
  exact (hI.2.1 j i (by simp)).symm

/-- C30: reads of frames whose base chain is acyclic and shorter than the recursion limit succeed. -/
theorem C30_reads_succeed (R : Nat) (st : State G) (depth : Nat → Nat)
    (hd : ∀ j k, st.base j = some k → depth k < depth j) (i : Nat) (hR : depth i < R) :
    ∃ g st', readF R i st = .ok (g, st') := by
  suffices H : ∀ (R i : Nat), depth i < R → ∃ g st', readF R i st = .ok (g, st') from H R i hR
  intro R
  induction R with
  | zero => intro i h; omega
  | succ R ih =>
    intro i h
    rw [readF]
    split
    · exact ⟨_, _, rfl⟩
    · split
      · exact ⟨_, _, rfl⟩
      · exact ⟨_, _, rfl⟩
      · split
        · exact ⟨_, _, rfl⟩
        · rename_i k hk
          obtain ⟨g, st', hg⟩ := ih k (by have := hd i k hk; omega)
          rw [hg]
          exact ⟨_, _, rfl⟩

/-- C30: notifications in a forest lower than the recursion limit succeed. -/
theorem C30_updates_succeed (R : Nat) (st : State G) (height : Nat → Nat)
    (hd : ∀ i j, j ∈ st.links i → height j < height i) (i : Nat) (hR : height i < R) :
    ∃ st', clear R i st = .ok st' := by
  suffices H : ∀ (R i : Nat) (s : State G), s.links = st.links → height i < R →
      ∃ st', clear R i s = .ok st' from H R i st rfl hR
  intro R
  induction R with
  | zero => intro i _ _ h; omega
  | succ R ih =>
    intro i s hs h
    rw [clear]
    have hl : (drop s i).links = st.links := hs
    have key : ∀ (l : List Nat) (s : State G), s.links = st.links → (∀ k ∈ l, height k < R) →
        ∃ s', l.foldlM (fun s j => clear R j s) s = .ok s' := by
      intro l
      induction l with
      | nil => intro s _ _; exact ⟨s, rfl⟩
      | cons x l ihl =>
        intro s hs hlt
        obtain ⟨s1, h1⟩ := ih x s hs (hlt x (by simp))
        have := (clear_spec R x s s1 h1).1.links
        obtain ⟨s2, h2⟩ := ihl s1 (this.trans hs) (fun k hk => hlt k (by simp [hk]))
        exact ⟨s2, by rw [List.foldlM_cons, h1]; exact h2⟩
    refine key _ _ hl fun k hk => ?_
    rw [hl] at hk
    have := hd i k hk
    omega

end model

/-! ### `lookat` -/

section fails

abbrev Z := Multiplicative Int

/-- Frame 1 is based on frame 0; both poses are translations along a line. -/
def two : State Z :=
  init (fun _ => false) (fun i => Multiplicative.ofAdd (if i = 0 then 10 else 1))

def toInt : Except PyErr (Z × State Z) → Option Int
  | .ok (g, _) => some g.toAdd
  | .error _ => none

/-- State after a history, with nothing on errors. -/
def after (ops : List (Op Z)) : State Z := (run 10 two ops).toOption.getD two

/-- C30 holds in this history: setting the pose moves the linked frame. -/
example : toInt (readF 10 1 (after [.setBase 1 (some 0), .readF 1, .pose 0 (Multiplicative.ofAdd 20)])) =
    some 21 := by decide +kernel

/-- C30 fails after `lookat`: the linked frame still reports the old chain, and so does the inverse of the
frame itself, while its own forwards transformation (the pose object itself) is current. -/
theorem C30_lookat_fails :
    let ops : List (Op Z) := [.setBase 1 (some 0), .readF 1, .readB 0, .lookat 0 (Multiplicative.ofAdd 20)]
    toInt (readF 10 1 (after ops)) = some 11 ∧ toInt (readB 10 0 (after ops)) = some (-10) ∧
      toInt (readF 10 0 (after ops)) = some 20 := by
  decide +kernel

/-- Two frames based on each other cannot be evaluated. -/
example : toInt (readF 10 1 (after [.setBase 1 (some 0), .setBase 0 (some 1)])) = none := by decide +kernel

end fails

end Verif.Core.Kin
