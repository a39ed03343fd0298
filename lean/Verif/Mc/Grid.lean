import Verif.Np
import Mathlib.Data.Rat.Defs
import Mathlib.Tactic.Common

/-!
# Grid dimensions (C116)

Model of `GridDimension` (`hermespy/core/pymonte/grid.py` 250-481) over a heap of Python objects: how the attribute of a dimension is
found, what configuring a sample point changes, and which stage impacts and title a dimension gets.  Simplified: assignments
to attributes store the assigned value (setters of properties do not convert or reject it), calls of functions and
shifts of scalar dimensions are recorded, not executed.
-/

namespace Verif.GridDim

/-- Values of attributes: scalars and references to objects. -/
inductive Val
  | num (q : ℚ)
  | ref (o : ℕ)
  deriving DecidableEq

/-- What the class of an object says about an attribute: nothing registered, or a `RegisteredDimension` with its impacts and title,
`core/pymonte/grid.py` 23-66. -/
inductive Reg
  | plain
  | registered (first last title : Option String)
  deriving DecidableEq

/-- An object: attributes of the instance, attributes of its class, if it is callable, and the title if it is a
`ScalarDimension` (`core/pymonte/grid.py` 484-510). -/
structure Obj where
  attr : String → Option Val
  cls : String → Option Reg
  callable : Bool
  scalar : Option String

/-- The heap, with the arguments each function was called with and each scalar dimension was shifted by, latest last. -/
structure Heap where
  objs : ℕ → Obj
  called : ℕ → List Val
  shifted : ℕ → List Val

/-- `getattr(obj, name)`. -/
def getattr (h : Heap) (v : Val) (name : String) : Option Val :=
  match v with
  | .num _ => none
  | .ref o => (h.objs o).attr name

/-- `reduce(lambda obj, attr: getattr(obj, attr), path, obj)`, `core/pymonte/grid.py` 343-345 and 470-472. -/
def resolve (h : Heap) : List String → Val → Option Val
  | [], v => some v
  | n :: ns, v =>
    match getattr h v n with
    | none => none
    | some w => resolve h ns w

/-- `getattr(type(obj), name)`, `core/pymonte/grid.py` 346-348. -/
def classattr (h : Heap) (v : Val) (name : String) : Option Reg :=
  match v with
  | .num _ => none
  | .ref o => (h.objs o).cls name

/-- Sample points as given: bare values or `SamplePoint`s. -/
inductive Point
  | bare (v : Val)
  | wrapped (v : Val)
  deriving DecidableEq

/-- Value of a sample point, `core/pymonte/grid.py` 168-172 and 398-401. -/
def Point.value : Point → Val
  | .bare v => v
  | .wrapped v => v

/-- `np.isscalar` of a sample point as given, `core/pymonte/grid.py` 385-387: `SamplePoint`s are not scalars. -/
def Point.isScalar : Point → Bool
  | .bare (.num _) => true
  | _ => false

/-- Setters held by a dimension, `core/pymonte/grid.py` 388-395 and 474-481. -/
inductive Setter
  | shift (o : ℕ)
  | call (f : ℕ)
  | assign (o : ℕ) (name : String)
  deriving DecidableEq

/-- Calling a setter. -/
def Setter.apply (h : Heap) (v : Val) : Setter → Heap
  | .shift o => { h with shifted := Function.update h.shifted o (h.shifted o ++ [v]) }
  | .call f => { h with called := Function.update h.called f (h.called f ++ [v]) }
  | .assign o name =>
    { h with objs := Function.update h.objs o { h.objs o with attr := Function.update (h.objs o).attr name (some v) } }

/-- `GridDimension.__create_setter_lambda`, `core/pymonte/grid.py` 454-481, for attribute `name` of the object `m` found on the path,
holding value `v`. -/
def createSetter (h : Heap) (m : ℕ) (name : String) (v : Val) : Setter :=
  match v with
  | .num _ => .assign m name
  | .ref f => if (h.objs f).callable then .call f else .assign m name

/-- A grid dimension, `core/pymonte/grid.py` 260-264 and 397-404. -/
structure Dimension where
  setters : List Setter
  first : Option String
  last : Option String
  title : Option String
  points : List Point
  deriving DecidableEq

/-- Setter for one considered object, `core/pymonte/grid.py` 383-395. -/
def setterOf (h : Heap) (points : List Point) (m : ℕ) (name : String) (v : Val) : Setter × Option String :=
  match v with
  | .num _ => (createSetter h m name v, none)
  | .ref o =>
    match (h.objs o).scalar with
    | some t => if points.all Point.isScalar then (.shift o, some t) else (createSetter h m name v, none)
    | none => (createSetter h m name v, none)

/-- `first and x != first` for impacts, `core/pymonte/grid.py` 364 and 369. -/
def diverges (known x : Option String) : Bool :=
  match known with
  | none => false
  | some k => k != "" && x != some k

/-- One pass of the loop over the considered objects, `core/pymonte/grid.py` 340-395. -/
def consider (h : Heap) (path : List String) (name : String) (d : Dimension) (o : Val) : Except PyErr Dimension :=
  match resolve h path o with
  | some (.ref m) =>
    match classattr h (.ref m) name, getattr h (.ref m) name with
    | some reg, some v =>
      if d.points.length < 1 then .error .value
      else
        match reg with
        | .plain =>
          .ok { d with
            setters := d.setters ++ [(setterOf h d.points m name v).1]
            title := match (setterOf h d.points m name v).2 with | some t => some t | none => d.title }
        | .registered first last title =>
          if diverges d.first first then .error .value
          else if diverges d.last last then .error .value
          else
            .ok ⟨d.setters ++ [(setterOf h d.points m name v).1], first, last,
              match (setterOf h d.points m name v).2 with
              | some t => some t
              | none => match d.title with | some t => some t | none => title, d.points⟩
    | _, _ => .error .value
  | _ => .error .value

/-- The loop over the considered objects. -/
def considerAll (h : Heap) (path : List String) (name : String) : Dimension → List Val → Except PyErr Dimension
  | d, [] => .ok d
  | d, o :: os =>
    match consider h path name d o with
    | .error e => .error e
    | .ok d' => considerAll h path name d' os

/-- `GridDimension.__init__`, `core/pymonte/grid.py` 266-404; `title = none` stands for the dimension's path. -/
def create (h : Heap) (objs : List Val) (path : List String) (name : String) (points : List Point) (title : Option String) :
    Except PyErr Dimension :=
  considerAll h path name ⟨[], none, none, title, points⟩ objs

/-- Calling all setters. -/
def applyAll (h : Heap) (v : Val) : List Setter → Heap
  | [] => h
  | s :: ss => applyAll (s.apply h v) v ss

/-- `GridDimension.configure_point`, `core/pymonte/grid.py` 418-434. -/
def configure (d : Dimension) (h : Heap) (i : ℤ) : Heap × Option PyErr :=
  if i < 0 ∨ (d.points.length : ℤ) ≤ i then (h, some .value)
  else
    match d.points[i.toNat]? with
    | none => (h, some .index)
    | some p => (applyAll h p.value d.setters, none)

/-! ### Lemmas -/

/-- What a considered object went through. -/
theorem consider_ok (h : Heap) (path : List String) (name : String) (d d' : Dimension) (o : Val)
    (hc : consider h path name d o = .ok d') :
    ∃ m reg v, resolve h path o = some (.ref m) ∧ (h.objs m).cls name = some reg ∧ (h.objs m).attr name = some v ∧
      d'.points = d.points ∧ d'.setters = d.setters ++ [(setterOf h d.points m name v).1] ∧ 1 ≤ d.points.length ∧
      (reg = .plain → d'.first = d.first ∧ d'.last = d.last) ∧
      (∀ f l t, reg = .registered f l t → d'.first = f ∧ d'.last = l ∧ diverges d.first f = false ∧ diverges d.last l = false) ∧
      ((setterOf h d.points m name v).2 = none → ∀ t, d.title = some t → d'.title = some t) ∧
      (∀ t, (setterOf h d.points m name v).2 = some t → d'.title = some t) := by
  unfold consider at hc
  split at hc
  · rename_i m hm
    split at hc
    · rename_i reg v hreg hv
      split at hc
      · simp at hc
      · rename_i hlen
        cases reg with
        | plain =>
          simp only [Except.ok.injEq] at hc
          subst hc
          refine ⟨m, .plain, v, hm, hreg, hv, rfl, rfl, by omega, fun _ => ⟨rfl, rfl⟩, by simp, ?_, ?_⟩
          · intro h0 t ht; simp [h0, ht]
          · intro t ht; simp [ht]
        | registered f l t =>
          simp only at hc
          split at hc
          · simp at hc
          · split at hc
            · simp at hc
            · rename_i h1 h2
              simp only [Except.ok.injEq] at hc
              subst hc
              refine ⟨m, .registered f l t, v, hm, hreg, hv, rfl, rfl, by omega, by simp, ?_, ?_, ?_⟩
              · intro f' l' t' e
                cases e
                exact ⟨rfl, rfl, by simpa using h1, by simpa using h2⟩
              · intro h0 t ht; simp [h0, ht]
              · intro t ht; simp [ht]
    · simp at hc
  · simp at hc

/-- The setters of a dimension, one per considered object. -/
theorem considerAll_setters (h : Heap) (path : List String) (name : String) (os : List Val) (d d' : Dimension)
    (hc : considerAll h path name d os = .ok d') :
    d'.points = d.points ∧ ∃ ss, d'.setters = d.setters ++ ss ∧ List.Forall₂ (fun o s => ∃ m v, resolve h path o = some (.ref m) ∧
      (h.objs m).attr name = some v ∧ s = (setterOf h d.points m name v).1) os ss := by
  induction os generalizing d with
  | nil =>
    simp only [considerAll, Except.ok.injEq] at hc
    subst hc
    exact ⟨rfl, [], by simp, .nil⟩
  | cons o os ih =>
    unfold considerAll at hc
    split at hc
    · simp at hc
    · rename_i d1 h1
      obtain ⟨m, reg, v, e1, _, e2, e3, e4, _⟩ := consider_ok h path name d d1 o h1
      obtain ⟨hp, ss, hs, hf⟩ := ih d1 hc
      rw [e3] at hp hf
      exact ⟨hp, _ :: ss, by rw [hs, e4, List.append_assoc]; rfl, .cons ⟨m, v, e1, e2, rfl⟩ hf⟩

/-- Effect of all setters: exactly the assigned attributes change. -/
theorem applyAll_attr (h : Heap) (v : Val) (ss : List Setter) (m : ℕ) (n : String) :
    ((applyAll h v ss).objs m).attr n = if Setter.assign m n ∈ ss then some v else (h.objs m).attr n := by
  induction ss generalizing h with
  | nil => simp [applyAll]
  | cons s ss ih =>
    unfold applyAll
    rw [ih]
    by_cases hm : Setter.assign m n ∈ ss
    · simp [hm]
    · rw [if_neg hm]
      cases s with
      | shift o => simp [Setter.apply, hm]
      | call f => simp [Setter.apply, hm]
      | assign o name =>
        by_cases ho : m = o
        · subst ho
          by_cases hn : n = name
          · subst hn; simp [Setter.apply]
          · simp [Setter.apply, hm, hn]
        · simp [Setter.apply, hm, ho]

theorem applyAll_shifted (h : Heap) (v : Val) (ss : List Setter) (o : ℕ) :
    (applyAll h v ss).shifted o = h.shifted o ++ List.replicate (ss.count (.shift o)) v := by
  induction ss generalizing h with
  | nil => simp [applyAll]
  | cons s ss ih =>
    unfold applyAll
    rw [ih, List.count_cons]
    cases s with
    | shift o' =>
      by_cases ho : o = o'
      · subst ho; simp [Setter.apply, List.replicate_succ]
      · have : ¬ o' = o := fun e => ho e.symm
        simp [Setter.apply, Function.update_of_ne ho, this]
    | call f => simp [Setter.apply]
    | assign o name => simp [Setter.apply]

theorem applyAll_called (h : Heap) (v : Val) (ss : List Setter) (f : ℕ) :
    (applyAll h v ss).called f = h.called f ++ List.replicate (ss.count (.call f)) v := by
  induction ss generalizing h with
  | nil => simp [applyAll]
  | cons s ss ih =>
    unfold applyAll
    rw [ih, List.count_cons]
    cases s with
    | call f' =>
      by_cases ho : f = f'
      · subst ho; simp [Setter.apply, List.replicate_succ]
      · have : ¬ f' = f := fun e => ho e.symm
        simp [Setter.apply, Function.update_of_ne ho, this]
    | shift f => simp [Setter.apply]
    | assign o name => simp [Setter.apply]

theorem mem_setters (h : Heap) (objs : List Val) (path : List String) (name : String) (points : List Point)
    (title : Option String) (d : Dimension) (hd : create h objs path name points title = .ok d) :
    d.points = points ∧ (∀ o ∈ objs, ∃ m v, resolve h path o = some (.ref m) ∧ (h.objs m).attr name = some v ∧
        (setterOf h points m name v).1 ∈ d.setters) ∧
      (∀ s ∈ d.setters, ∃ o ∈ objs, ∃ m v, resolve h path o = some (.ref m) ∧ (h.objs m).attr name = some v ∧
        s = (setterOf h points m name v).1) := by
  obtain ⟨hp, ss, hs, hf⟩ := considerAll_setters h path name objs _ d hd
  simp only [List.nil_append] at hp hs hf
  rw [hs]
  refine ⟨hp, ?_, ?_⟩
  · intro o ho
    clear hd hp hs
    induction hf with
    | nil => simp at ho
    | cons hos _ ih =>
      rcases List.mem_cons.mp ho with rfl | ho
      · obtain ⟨m, v, h1, h2, rfl⟩ := hos
        exact ⟨m, v, h1, h2, List.mem_cons_self⟩
      · obtain ⟨m, v, h1, h2, h3⟩ := ih ho
        exact ⟨m, v, h1, h2, List.mem_cons_of_mem _ h3⟩
  · intro s hs'
    clear hd hp hs
    induction hf with
    | nil => simp at hs'
    | cons hos _ ih =>
      rcases List.mem_cons.mp hs' with rfl | hs'
      · obtain ⟨m, v, h1, h2, h3⟩ := hos
        exact ⟨_, List.mem_cons_self, m, v, h1, h2, h3⟩
      · obtain ⟨o, ho, r⟩ := ih hs'
        exact ⟨o, List.mem_cons_of_mem _ ho, r⟩

theorem configure_ok (d : Dimension) (h : Heap) (i : ℕ) (p : Point) (hp : d.points[i]? = some p) :
    configure d h i = (applyAll h p.value d.setters, none) := by
  have hi : i < d.points.length := (List.getElem?_eq_some_iff.mp hp).1
  unfold configure
  rw [if_neg (by omega)]
  simp [hp]

/-- The objects of a plain attribute: numbers, or objects that are neither callable nor scalar dimensions. -/
def Plain (h : Heap) (v : Val) : Prop := ∀ c, v = .ref c → (h.objs c).callable = false ∧ (h.objs c).scalar = none

theorem setterOf_plain (h : Heap) (points : List Point) (m : ℕ) (name : String) (v : Val) (hv : Plain h v) :
    setterOf h points m name v = (.assign m name, none) := by
  cases v with
  | num q => rfl
  | ref c =>
    obtain ⟨h1, h2⟩ := hv c rfl
    simp [setterOf, h2, createSetter, h1]

/-! ### Theorems -/

/-- **Configuring a sample point configures every considered object.**  Whatever happened to the heap since the dimension was created:
plain attributes of the objects found on the paths hold the value of the sample point, functions have been called with it,
and scalar dimensions have been shifted by it if all sample points are bare scalars. -/
theorem C116_configures (h : Heap) (objs : List Val) (path : List String) (name : String) (points : List Point)
    (title : Option String) (d : Dimension) (hd : create h objs path name points title = .ok d) (h' : Heap) (i : ℕ) (p : Point)
    (hp : points[i]? = some p) :
    (configure d h' i).2 = none ∧ ∀ o ∈ objs, ∃ m v, resolve h path o = some (.ref m) ∧ (h.objs m).attr name = some v ∧
      (Plain h v → ((configure d h' i).1.objs m).attr name = some p.value) ∧
      (∀ c, v = .ref c → (h.objs c).scalar = none → (h.objs c).callable = true →
        ((configure d h' i).1.called c).getLast? = some p.value) ∧
      (∀ c, v = .ref c → (h.objs c).scalar ≠ none → (∀ q ∈ points, ∃ x, q = .bare (.num x)) →
        ((configure d h' i).1.shifted c).getLast? = some p.value) := by
  obtain ⟨e, hm, _⟩ := mem_setters h objs path name points title d hd
  have hc := configure_ok d h' i p (by rw [e]; exact hp)
  rw [hc]
  refine ⟨rfl, ?_⟩
  have hlast : ∀ (l : List Val) (n : ℕ), 0 < n → (l ++ List.replicate n p.value).getLast? = some p.value := by
    intro l n hn
    obtain ⟨k, rfl⟩ : ∃ k, n = k + 1 := ⟨n - 1, by omega⟩
    rw [List.replicate_succ', ← List.append_assoc, List.getLast?_concat]
  intro o ho
  obtain ⟨m, v, h1, h2, h3⟩ := hm o ho
  refine ⟨m, v, h1, h2, ?_, ?_, ?_⟩
  · intro hv
    rw [setterOf_plain h points m name v hv] at h3
    simp only [applyAll_attr]
    rw [if_pos h3]
  · rintro c rfl hs hcall
    have : (setterOf h points m name (.ref c)).1 = .call c := by simp [setterOf, hs, createSetter, hcall]
    rw [this] at h3
    simp only [applyAll_called]
    exact hlast _ _ (List.count_pos_iff.mpr h3)
  · rintro c rfl hs hall
    obtain ⟨t, ht⟩ := Option.ne_none_iff_exists'.mp hs
    have hall' : points.all Point.isScalar = true := by
      rw [List.all_eq_true]
      intro q hq
      obtain ⟨x, rfl⟩ := hall q hq
      rfl
    have : (setterOf h points m name (.ref c)).1 = .shift c := by simp only [setterOf, ht, hall']; rfl
    rw [this] at h3
    simp only [applyAll_shifted]
    exact hlast _ _ (List.count_pos_iff.mpr h3)

/-- **Configuring changes nothing else**: attributes other than the dimension's of the objects found on the paths, and functions and
scalar dimensions not found there, are left alone. -/
theorem C116_frame (h : Heap) (objs : List Val) (path : List String) (name : String) (points : List Point)
    (title : Option String) (d : Dimension) (hd : create h objs path name points title = .ok d) (h' : Heap) (i : ℤ) :
    (∀ m n, (n ≠ name ∨ ∀ o ∈ objs, resolve h path o ≠ some (.ref m)) →
      ((configure d h' i).1.objs m).attr n = (h'.objs m).attr n) ∧
    (∀ c, (∀ o ∈ objs, ∀ m, resolve h path o = some (.ref m) → (h.objs m).attr name ≠ some (.ref c)) →
      (configure d h' i).1.called c = h'.called c ∧ (configure d h' i).1.shifted c = h'.shifted c) := by
  obtain ⟨_, _, hm⟩ := mem_setters h objs path name points title d hd
  have key : ∀ m v s, s = (setterOf h points m name v).1 →
      (∀ m' n, s = .assign m' n → m' = m ∧ n = name) ∧ (∀ c, s = .call c ∨ s = .shift c → v = .ref c) := by
    intro m v s hs
    cases v with
    | num q =>
      subst hs
      refine ⟨fun m' n e => ?_, fun c e => ?_⟩
      · simp only [setterOf, createSetter, Setter.assign.injEq] at e; exact ⟨e.1.symm, e.2.symm⟩
      · simp [setterOf, createSetter] at e
    | ref c =>
      have hcs : s = .shift c ∨ s = .call c ∨ s = .assign m name := by
        rw [hs]
        simp only [setterOf, createSetter]
        split
        · split
          · exact .inl rfl
          · split
            · exact .inr (.inl rfl)
            · exact .inr (.inr rfl)
        · split
          · exact .inr (.inl rfl)
          · exact .inr (.inr rfl)
      rcases hcs with rfl | rfl | rfl
      · exact ⟨by simp, by rintro c' (e | e) <;> cases e; rfl⟩
      · exact ⟨by simp, by rintro c' (e | e) <;> cases e; rfl⟩
      · exact ⟨fun m' n e => by cases e; exact ⟨rfl, rfl⟩, by rintro c' (e | e) <;> cases e⟩
  have hcfg : (configure d h' i).1 = h' ∨ ∃ v, (configure d h' i).1 = applyAll h' v d.setters := by
    unfold configure
    split
    · exact .inl rfl
    · split
      · exact .inl rfl
      · exact .inr ⟨_, rfl⟩
  constructor
  · intro m n hmn
    rcases hcfg with e | ⟨v, e⟩
    · rw [e]
    · rw [e, applyAll_attr, if_neg]
      intro hs
      obtain ⟨o, ho, m', v', h1, _, h3⟩ := hm _ hs
      obtain ⟨rfl, rfl⟩ := (key m' v' _ h3).1 m n rfl
      rcases hmn with hmn | hmn
      · exact hmn rfl
      · exact hmn o ho h1
  · intro c hcn
    rcases hcfg with e | ⟨v, e⟩
    · rw [e]; exact ⟨rfl, rfl⟩
    · have h0 : Setter.call c ∉ d.setters ∧ Setter.shift c ∉ d.setters := by
        constructor <;>
        · intro hs
          obtain ⟨o, ho, m', v', h1, h2, h3⟩ := hm _ hs
          have := (key m' v' _ h3).2 c (by simp)
          subst this
          exact hcn o ho m' h1 h2
      rw [e, applyAll_called, applyAll_shifted, List.count_eq_zero.mpr h0.1, List.count_eq_zero.mpr h0.2]
      simp

/-- **Replaced objects are not configured.**  If, after a dimension was created, an object on the path of its only considered object
has been replaced, so that the path now leads to another object, configuring any sample point leaves the parameter found on
the path as it is. -/
theorem C116_replaced_fails (h : Heap) (o : Val) (path : List String) (name : String) (points : List Point)
    (title : Option String) (d : Dimension) (hd : create h [o] path name points title = .ok d) (h' : Heap) (i : ℤ) (m m' : ℕ)
    (hm : resolve h path o = some (.ref m)) (_hm' : resolve h' path o = some (.ref m')) (hne : m' ≠ m) :
    ((configure d h' i).1.objs m').attr name = (h'.objs m').attr name := by
  refine (C116_frame h [o] path name points title d hd h' i).1 m' name (.inr ?_)
  intro o' ho'
  rw [List.mem_singleton.mp ho', hm]
  intro e
  simp only [Option.some.injEq, Val.ref.injEq] at e
  exact hne e.symm

/-- **Invalid sample points are rejected** without configuring anything, valid ones never are. -/
theorem C116_index (d : Dimension) (h : Heap) (i : ℤ) :
    ((configure d h i).2 = none ↔ 0 ≤ i ∧ i < d.points.length) ∧
      ((configure d h i).2 ≠ none → configure d h i = (h, some .value)) := by
  by_cases hi : i < 0 ∨ (d.points.length : ℤ) ≤ i
  · have : configure d h i = (h, some .value) := by unfold configure; rw [if_pos hi]
    rw [this]
    simp only [reduceCtorEq, false_iff, not_and, not_lt]
    exact ⟨by omega, fun _ => trivial⟩
  · have hlt : i.toNat < d.points.length := by omega
    have := configure_ok d h i.toNat _ (List.getElem?_eq_getElem hlt)
    rw [show ((i.toNat : ℕ) : ℤ) = i by omega] at this
    rw [this]
    refine ⟨?_, by simp⟩
    simp only [true_iff]
    omega

/-- **Wrapped scalars replace scalar dimensions.**  If the attribute holds a scalar dimension, such as a noise level, and a sample
point is given as `SamplePoint`, configuring overwrites the attribute with the bare value of the sample point and the
scalar dimension is not configured. -/
theorem C116_wrapped_fails (h : Heap) (o : Val) (path : List String) (name : String) (points : List Point)
    (title : Option String) (d : Dimension) (hd : create h [o] path name points title = .ok d) (m c : ℕ)
    (hm : resolve h path o = some (.ref m)) (hc : (h.objs m).attr name = some (.ref c)) (hcall : (h.objs c).callable = false)
    (w : Val) (hw : Point.wrapped w ∈ points) (h' : Heap) (i : ℕ) (p : Point) (hp : points[i]? = some p) :
    ((configure d h' i).1.objs m).attr name = some p.value ∧ (configure d h' i).1.shifted c = h'.shifted c := by
  obtain ⟨e, hin, hout⟩ := mem_setters h [o] path name points title d hd
  have hs : (setterOf h points m name (.ref c)).1 = .assign m name := by
    have hall : points.all Point.isScalar = false := by
      rw [List.all_eq_false]
      exact ⟨_, hw, by simp [Point.isScalar]⟩
    simp only [setterOf, hall, createSetter, hcall]
    split <;> rfl
  have hu : ∀ m' v, resolve h path o = some (.ref m') → (h.objs m').attr name = some v → m' = m ∧ v = .ref c := by
    intro m' v h1 h2
    rw [hm] at h1
    simp only [Option.some.injEq, Val.ref.injEq] at h1
    subst h1
    rw [hc] at h2
    exact ⟨rfl, (Option.some.inj h2).symm⟩
  rw [configure_ok d h' i p (by rw [e]; exact hp)]
  constructor
  · obtain ⟨m', v, h1, h2, h3⟩ := hin o (List.mem_singleton.mpr rfl)
    obtain ⟨rfl, rfl⟩ := hu m' v h1 h2
    rw [hs] at h3
    simp only [applyAll_attr]
    rw [if_pos h3]
  · simp only [applyAll_shifted]
    rw [List.count_eq_zero.mpr, List.replicate_zero, List.append_nil]
    intro hmem
    obtain ⟨o', ho', m', v, h1, h2, h3⟩ := hout _ hmem
    rw [List.mem_singleton.mp ho'] at h1
    obtain ⟨rfl, rfl⟩ := hu m' v h1 h2
    rw [hs] at h3
    simp at h3

/-- **Dimensions that do not exist are rejected.**  Creation only ever raises value errors; it does if the path of some considered
object leads nowhere or its end has no such attribute, and if there are no sample points. -/
theorem C116_rejects (h : Heap) (objs : List Val) (path : List String) (name : String) (points : List Point)
    (title : Option String) :
    (∀ e, create h objs path name points title = .error e → e = .value) ∧
      ((∃ o ∈ objs, ∀ m, resolve h path o = some (.ref m) → (h.objs m).attr name = none) →
        create h objs path name points title = .error .value) ∧
      (objs ≠ [] → points = [] → create h objs path name points title = .error .value) := by
  have h1 : ∀ (os : List Val) (d : Dimension) e, considerAll h path name d os = .error e → e = .value := by
    intro os
    induction os with
    | nil => intro d e he; simp [considerAll] at he
    | cons o os ih =>
      intro d e he
      unfold considerAll at he
      split at he
      · rename_i e' he'
        simp only [Except.error.injEq] at he
        subst he
        unfold consider at he'
        split at he'
        · split at he'
          · split at he'
            · simpa using he'.symm
            · split at he'
              · simp at he'
              · split at he'
                · simpa using he'.symm
                · split at he'
                  · simpa using he'.symm
                  · simp at he'
          · simpa using he'.symm
        · simpa using he'.symm
      · exact ih _ e he
  refine ⟨fun e => h1 objs _ e, ?_, ?_⟩
  · rintro ⟨o, ho, hno⟩
    cases hc : create h objs path name points title with
    | error e => rw [h1 objs _ e hc]
    | ok d =>
      exfalso
      obtain ⟨m, v, e1, e2, _⟩ := (mem_setters h objs path name points title d hc).2.1 o ho
      rw [hno m e1] at e2
      simp at e2
  · intro hne hp
    cases hc : create h objs path name points title with
    | error e => rw [h1 objs _ e hc]
    | ok d =>
      exfalso
      cases objs with
      | nil => exact hne rfl
      | cons o os =>
        unfold create considerAll at hc
        split at hc
        · simp at hc
        · rename_i d1 hd1
          obtain ⟨m, reg, v, _, _, _, _, _, hlen, _⟩ := consider_ok _ _ _ _ _ _ hd1
          simp [hp] at hlen

/-- **Attributes of instances are rejected.**  An attribute that exists, but only on the instance and not on its class, raises a value
error as if it did not exist. -/
theorem C116_instance_fails (h : Heap) (o : Val) (os : List Val) (path : List String) (name : String) (points : List Point)
    (title : Option String) (m : ℕ) (v : Val) (hm : resolve h path o = some (.ref m)) (_hv : (h.objs m).attr name = some v)
    (hc : (h.objs m).cls name = none) : create h (o :: os) path name points title = .error .value := by
  unfold create considerAll
  simp [consider, hm, classattr, hc]

/-- **Existing dimensions are accepted**: if all paths lead to objects having the attribute, on instance and class, none of which or all
of which are registered with the same impacts. -/
theorem C116_accepts (h : Heap) (objs : List Val) (path : List String) (name : String) (points : List Point)
    (title : Option String) (hp : points ≠ []) (f l : Option String)
    (ho : (∀ o ∈ objs, ∃ m v, resolve h path o = some (.ref m) ∧ (h.objs m).attr name = some v ∧
          (h.objs m).cls name = some .plain) ∨
      ∀ o ∈ objs, ∃ m v t, resolve h path o = some (.ref m) ∧ (h.objs m).attr name = some v ∧
        (h.objs m).cls name = some (.registered f l t)) :
    ∃ d, create h objs path name points title = .ok d := by
  have hlen : ¬ points.length < 1 := by
    have := List.length_pos_iff.mpr hp
    omega
  have hdiv : ∀ k : Option String, diverges none k = false ∧ diverges k k = false := by
    intro k
    refine ⟨rfl, ?_⟩
    cases k <;> simp [diverges]
  rcases ho with ho | ho
  · have key : ∀ (os : List Val), (∀ o ∈ os, ∃ m v, resolve h path o = some (.ref m) ∧ (h.objs m).attr name = some v ∧
        (h.objs m).cls name = some .plain) → ∀ d : Dimension, d.points = points → ∃ d', considerAll h path name d os = .ok d' := by
      intro os
      induction os with
      | nil => intro _ d _; exact ⟨d, rfl⟩
      | cons o os ih =>
        intro ho d hd
        obtain ⟨m, v, h1, h2, h3⟩ := ho o List.mem_cons_self
        unfold considerAll
        simp only [consider, h1, classattr, h3, getattr, h2, hd, hlen, if_false]
        exact ih (fun o ho' => ho o (List.mem_cons_of_mem _ ho')) _ rfl
    exact key objs ho _ rfl
  · have key : ∀ (os : List Val), (∀ o ∈ os, ∃ m v t, resolve h path o = some (.ref m) ∧ (h.objs m).attr name = some v ∧
        (h.objs m).cls name = some (.registered f l t)) → ∀ d : Dimension, d.points = points →
          (d.first = none ∨ d.first = f) → (d.last = none ∨ d.last = l) → ∃ d', considerAll h path name d os = .ok d' := by
      intro os
      induction os with
      | nil => intro _ d _ _ _; exact ⟨d, rfl⟩
      | cons o os ih =>
        intro ho d hd hf hl
        obtain ⟨m, v, t, h1, h2, h3⟩ := ho o List.mem_cons_self
        have hdf : diverges d.first f = false := by
          rcases hf with e | e <;> rw [e]
          · exact (hdiv f).1
          · exact (hdiv f).2
        have hdl : diverges d.last l = false := by
          rcases hl with e | e <;> rw [e]
          · exact (hdiv l).1
          · exact (hdiv l).2
        unfold considerAll
        simp only [consider, h1, classattr, h3, getattr, h2, hd, hlen, if_false, hdf, hdl, Bool.false_eq_true]
        exact ih (fun o ho' => ho o (List.mem_cons_of_mem _ ho')) _ rfl (.inr rfl) (.inr rfl)
    exact key objs ho _ rfl (.inl rfl) (.inl rfl)

/-- **Impacts are those of all considered objects**, if the attributes of all of them are registered with both impacts. -/
theorem C116_impact_partial (h : Heap) (objs : List Val) (path : List String) (name : String) (points : List Point)
    (title : Option String) (d : Dimension) (hd : create h objs path name points title = .ok d)
    (hreg : ∀ o ∈ objs, ∀ m, resolve h path o = some (.ref m) → ∃ f l t, f ≠ "" ∧ l ≠ "" ∧
      (h.objs m).cls name = some (.registered (some f) (some l) t)) :
    ∀ o ∈ objs, ∀ m, resolve h path o = some (.ref m) → ∃ t, (h.objs m).cls name = some (.registered d.first d.last t) := by
  have key : ∀ (os : List Val) (d d' : Dimension), (∀ o ∈ os, ∀ m, resolve h path o = some (.ref m) → ∃ f l t, f ≠ "" ∧ l ≠ "" ∧
      (h.objs m).cls name = some (.registered (some f) (some l) t)) → considerAll h path name d os = .ok d' →
      (∀ f, f ≠ "" → d.first = some f → d'.first = some f) ∧ (∀ l, l ≠ "" → d.last = some l → d'.last = some l) ∧
      ∀ o ∈ os, ∀ m, resolve h path o = some (.ref m) → ∃ t, (h.objs m).cls name = some (.registered d'.first d'.last t) := by
    intro os
    induction os with
    | nil =>
      intro d d' _ hc
      simp only [considerAll, Except.ok.injEq] at hc
      subst hc
      exact ⟨fun _ _ h => h, fun _ _ h => h, by simp⟩
    | cons o os ih =>
      intro d d' hr hc
      unfold considerAll at hc
      split at hc
      · simp at hc
      · rename_i d1 hd1
        obtain ⟨m, reg, v, e1, e2, _, _, _, _, _, e3, _⟩ := consider_ok _ _ _ _ _ _ hd1
        obtain ⟨f, l, t, hf, hl, hcls⟩ := hr o List.mem_cons_self m e1
        rw [hcls] at e2
        obtain ⟨g1, g2, g3, g4⟩ := e3 _ _ _ (Option.some.inj e2).symm
        obtain ⟨i1, i2, i3⟩ := ih d1 d' (fun o ho => hr o (List.mem_cons_of_mem _ ho)) hc
        have j1 := i1 f hf g1
        have j2 := i2 l hl g2
        have hd : ∀ (k x : String), k ≠ "" → diverges (some k) (some x) = false → x = k := by
          intro k x hk hx
          simpa [diverges, hk] using hx
        refine ⟨?_, ?_, ?_⟩
        · intro k hk e
          rw [e] at g3
          rw [j1, hd k f hk g3]
        · intro k hk e
          rw [e] at g4
          rw [j2, hd k l hk g4]
        · intro o' ho' m' hm'
          rcases List.mem_cons.mp ho' with rfl | ho'
          · rw [e1] at hm'
            simp only [Option.some.injEq, Val.ref.injEq] at hm'
            subst hm'
            exact ⟨t, by rw [hcls, j1, j2]⟩
          · exact i3 o' ho' m' hm'
  exact (key objs _ d hreg hd).2.2

/-- **Empty names of impacts match everything.**  Objects whose attributes are registered with empty impacts are followed by objects of
any other impacts without an error, and the dimension claims the impacts of the latter. -/
theorem C116_unnamed (h : Heap) (o₁ o₂ : Val) (path : List String) (name : String) (p : Point) (points : List Point)
    (title : Option String) (m₁ m₂ : ℕ) (h₁ : resolve h path o₁ = some (.ref m₁)) (h₂ : resolve h path o₂ = some (.ref m₂))
    (v₁ v₂ : Val) (a₁ : (h.objs m₁).attr name = some v₁) (a₂ : (h.objs m₂).attr name = some v₂)
    (f l t t₁ : Option String) (c₁ : (h.objs m₁).cls name = some (.registered (some "") (some "") t₁))
    (c₂ : (h.objs m₂).cls name = some (.registered f l t)) :
    ∃ d, create h [o₁, o₂] path name (p :: points) title = .ok d ∧ d.first = f ∧ d.last = l := by
  simp [create, considerAll, consider, h₁, h₂, classattr, getattr, a₁, a₂, c₁, c₂, diverges]

/-- **Impacts of unregistered attributes are ignored.**  A dimension of two objects, of which only the first one's attribute is registered,
claims the impacts of the first, although nothing is known about the impacts of the second. -/
theorem C116_impact_fails (h : Heap) (o₁ o₂ : Val) (path : List String) (name : String) (points : List Point)
    (title : Option String) (d : Dimension) (hd : create h [o₁, o₂] path name points title = .ok d) (m₁ m₂ : ℕ)
    (h₁ : resolve h path o₁ = some (.ref m₁)) (h₂ : resolve h path o₂ = some (.ref m₂)) (f l t : Option String)
    (c₁ : (h.objs m₁).cls name = some (.registered f l t)) (c₂ : (h.objs m₂).cls name = some .plain) :
    d.first = f ∧ d.last = l := by
  unfold create considerAll at hd
  split at hd
  · simp at hd
  · rename_i d1 hd1
    unfold considerAll at hd
    split at hd
    · simp at hd
    · rename_i d2 hd2
      simp only [considerAll, Except.ok.injEq] at hd
      subst hd
      obtain ⟨m, reg, v, e1, e2, _, _, _, _, _, e3, _⟩ := consider_ok _ _ _ _ _ _ hd1
      obtain ⟨m', reg', v', e1', e2', _, _, _, _, e3', _⟩ := consider_ok _ _ _ _ _ _ hd2
      rw [h₁] at e1
      simp only [Option.some.injEq, Val.ref.injEq] at e1
      rw [h₂] at e1'
      simp only [Option.some.injEq, Val.ref.injEq] at e1'
      subst e1 e1'
      rw [c₁] at e2
      rw [c₂] at e2'
      obtain ⟨g1, g2⟩ := e3' (Option.some.inj e2').symm
      obtain ⟨k1, k2, _⟩ := e3 _ _ _ (Option.some.inj e2).symm
      exact ⟨g1.trans k1, g2.trans k2⟩

/-- **Titles given by the user are kept**, unless the attributes hold scalar dimensions. -/
theorem C116_title_partial (h : Heap) (objs : List Val) (path : List String) (name : String) (points : List Point) (t : String)
    (d : Dimension) (hd : create h objs path name points (some t) = .ok d)
    (hs : ∀ o ∈ objs, ∀ m c, resolve h path o = some (.ref m) → (h.objs m).attr name = some (.ref c) → (h.objs c).scalar = none) :
    d.title = some t := by
  have key : ∀ (os : List Val) (d d' : Dimension), (∀ o ∈ os, ∀ m c, resolve h path o = some (.ref m) →
      (h.objs m).attr name = some (.ref c) → (h.objs c).scalar = none) → d.title = some t →
        considerAll h path name d os = .ok d' → d'.title = some t := by
    intro os
    induction os with
    | nil => intro d d' _ ht hc; simp only [considerAll, Except.ok.injEq] at hc; subst hc; exact ht
    | cons o os ih =>
      intro d d' hs ht hc
      unfold considerAll at hc
      split at hc
      · simp at hc
      · rename_i d1 hd1
        obtain ⟨m, reg, v, e1, _, e2, _, _, _, _, _, e3, _⟩ := consider_ok _ _ _ _ _ _ hd1
        refine ih d1 d' (fun o ho => hs o (List.mem_cons_of_mem _ ho)) (e3 ?_ t ht) hc
        cases v with
        | num q => rfl
        | ref c => simp [setterOf, hs o List.mem_cons_self m c e1 e2]
  exact key objs _ d hs rfl hd

/-- **Titles given by the user are replaced by those of scalar dimensions.** -/
theorem C116_title_fails (h : Heap) (o : Val) (path : List String) (name : String) (points : List Point) (t t' : String)
    (d : Dimension) (hd : create h [o] path name points (some t) = .ok d) (m c : ℕ) (hm : resolve h path o = some (.ref m))
    (hc : (h.objs m).attr name = some (.ref c)) (hs : (h.objs c).scalar = some t')
    (hall : ∀ q ∈ points, ∃ x, q = .bare (.num x)) (hne : t ≠ t') : d.title ≠ some t ∧ d.title = some t' := by
  have : d.title = some t' := by
    unfold create considerAll at hd
    split at hd
    · simp at hd
    · rename_i d1 hd1
      simp only [considerAll, Except.ok.injEq] at hd
      subst hd
      obtain ⟨m', reg, v, e1, _, e2, _, _, _, _, _, _, e3⟩ := consider_ok _ _ _ _ _ _ hd1
      rw [hm] at e1
      simp only [Option.some.injEq, Val.ref.injEq] at e1
      subst e1
      rw [hc] at e2
      obtain rfl := Option.some.inj e2
      apply e3
      have hall' : points.all Point.isScalar = true := by
        rw [List.all_eq_true]
        intro q hq
        obtain ⟨x, rfl⟩ := hall q hq
        rfl
      simp only [setterOf, hs, hall']
      rfl
  rw [this]
  exact ⟨fun e => hne (Option.some.inj e).symm, rfl⟩

/-! ### Example -/

/-- A simulation (0) with a device (1) with a noise level (2), a waveform (3), and a second waveform (4). -/
def demo : Heap where
  objs o :=
    match o with
    | 0 => ⟨fun n => if n = "device" then some (.ref 1) else none, fun n => if n = "device" then some .plain else none, false, none⟩
    | 1 => ⟨fun n => if n = "noise_level" then some (.ref 2) else if n = "waveform" then some (.ref 3)
          else if n = "carrier_frequency" then some (.num 1) else if n = "_secret" then some (.num 7) else none,
        fun n => if n = "noise_level" then some (.registered (some "receive_devices") none (some "Device Noise Level"))
          else if n = "waveform" ∨ n = "carrier_frequency" then some .plain else none, false, none⟩
    | 2 => ⟨fun _ => none, fun _ => none, false, some "SNR"⟩
    | _ => ⟨fun n => if n = "oversampling_factor" then some (.num 4) else none,
        fun n => if n = "oversampling_factor" then some .plain else none, false, none⟩
  called _ := []
  shifted _ := []

/-- The demo after the waveform has been replaced. -/
def replaced : Heap := (Setter.assign 1 "waveform").apply demo (.ref 4)

example : create demo [.ref 0] ["device"] "carrier_frequency" [.bare (.num 2), .wrapped (.num 3)] none =
    .ok ⟨[.assign 1 "carrier_frequency"], none, none, none, [.bare (.num 2), .wrapped (.num 3)]⟩ := by rfl

example : create demo [.ref 1] [] "noise_level" [.bare (.num 2)] (some "Mine") =
    .ok ⟨[.shift 2], some "receive_devices", none, some "SNR", [.bare (.num 2)]⟩ := by rfl

example : create demo [.ref 1] [] "noise_level" [.wrapped (.num 2)] (some "Mine") =
    .ok ⟨[.assign 1 "noise_level"], some "receive_devices", none, some "Mine", [.wrapped (.num 2)]⟩ := by rfl

/-- Hypotheses of `C116_replaced_fails`. -/
example := C116_replaced_fails demo (.ref 1) ["waveform"] "oversampling_factor" [.bare (.num 2)] none
  ⟨[.assign 3 "oversampling_factor"], none, none, none, [.bare (.num 2)]⟩ rfl replaced 0 3 4 rfl rfl (by decide)

/-- Hypotheses of `C116_wrapped_fails`. -/
example := C116_wrapped_fails demo (.ref 1) [] "noise_level" [.wrapped (.num 2)] none
  ⟨[.assign 1 "noise_level"], some "receive_devices", none, some "Device Noise Level", [.wrapped (.num 2)]⟩ rfl 1 2 rfl rfl rfl
  (.num 2) (by simp) demo 0 _ rfl

example := C116_title_fails demo (.ref 1) [] "noise_level" [.bare (.num 2)] "Mine" "SNR"
  ⟨[.shift 2], some "receive_devices", none, some "SNR", [.bare (.num 2)]⟩ rfl 1 2 rfl rfl rfl (by simp) (by decide)

example := C116_instance_fails demo (.ref 0) [] ["device"] "_secret" [.bare (.num 2)] none 1 (.num 7) rfl rfl rfl

/-- Two objects, of which only the first registers its parameter. -/
def mixed : Heap where
  objs o := ⟨fun n => if n = "x" then some (.num 0) else none,
    fun n => if n = "x" then some (if o = 0 then .registered (some "a") (some "b") none else .plain) else none, false, none⟩
  called _ := []
  shifted _ := []

example := C116_impact_fails mixed (.ref 0) (.ref 1) [] "x" [.bare (.num 1)] none
  ⟨[.assign 0 "x", .assign 1 "x"], some "a", some "b", none, [.bare (.num 1)]⟩ rfl 0 1 rfl rfl _ _ _ rfl rfl

example := C116_impact_partial mixed [.ref 0] [] "x" [.bare (.num 1)] none
  ⟨[.assign 0 "x"], some "a", some "b", none, [.bare (.num 1)]⟩ rfl
  (by
    intro o ho m hm
    rw [List.mem_singleton.mp ho] at hm
    cases hm
    exact ⟨"a", "b", none, by decide, by decide, rfl⟩)

end Verif.GridDim
