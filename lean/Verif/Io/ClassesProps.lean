import Verif.Io.Classes.Channel
import Verif.Io.Classes.Core
import Verif.Io.Classes.Modem
import Verif.Io.Classes.Radar
import Verif.Io.Classes.Sim

/-!
# What storing and restoring does to the objects of `hermespy` (C122)

The claim: an object written with `to_HDF` and read back with `from_HDF` is an object of the same class
whose parameters have the values they had.  `C122_restored` proves it for the classes that name every
parameter on both sides; the other theorems say what happens to the rest.
-/

namespace Verif.Schema

open Py

/-- Classes that store and restore every parameter. -/
def faithfulClasses : List ClassDesc :=
  channelFaithful ++ coreFaithful ++ modemFaithful ++ radarFaithful ++ simFaithful

/-- Classes that store and restore some parameters only, with the parameters they lose. -/
def lossyClasses : List (ClassDesc × List String) :=
  channelLossy ++ coreLossy ++ modemLossy ++ radarLossy ++ simLossy

/-- Classes whose `Deserialize` instantiates another class. -/
def foreignClasses : List ClassDesc := [simulatedCustomArray, mappedPilotSymbolSequence, tixwr1843]

/-- Fading models whose line of sight angle may be `None`, which `serialize` writes without a test. -/
def angleClasses : List ClassDesc := [cost259, exponential, tdl]

/-- Antenna arrays whose dimensions are stored as floating point numbers and not converted back. -/
def uniformClasses : List ClassDesc := [uniformArray, simulatedUniformArray]

/-- Classes that raise when stored or when restored. -/
def raisingClasses : List ClassDesc :=
  [multipathFadingRealization, bitErrorEvaluator, blockErrorEvaluator, frameErrorEvaluator,
   constellationEVM, throughputEvaluator, idealChannelEstimation, singleCarrierIdealChannelEstimation,
   ofdmIdealChannelEstimation, evaluatedDrop]

/-! ### The checks, class by class -/

theorem faithful_checked : (faithfulClasses.all fun c =>
    c.writesOk && c.readsOk && c.distinct && decide (c.builds = c.name) && c.params.all c.kept) = true := by
  decide +kernel

theorem lossy_checked : (lossyClasses.all fun e =>
    e.1.writesOk && e.1.readsOk && e.1.distinct && decide (e.1.builds = e.1.name) &&
    e.1.params.all fun p => if p.name ∈ e.2 then e.1.lost p else e.1.kept p) = true := by
  decide +kernel

theorem foreign_checked : (foreignClasses.all fun c =>
    c.writesOk && c.readsOk && decide (c.builds ≠ c.name)) = true := by
  decide +kernel

theorem angle_checked : (angleClasses.all fun c =>
    (c.firm "los_angle").writesOk && (c.firm "los_angle").readsOk && decide (c.builds = c.name) &&
    (c.firm "los_angle").params.all (c.firm "los_angle").kept &&
    (c.reads.all fun r => decide (r.param = "los_angle" → r = .field "los_angle" .flt "los_angle" .required)) &&
    decide (.field "los_angle" .flt "los_angle" .required ∈ c.reads)) = true := by
  decide +kernel

theorem uniform_checked : (uniformClasses.all fun c =>
    c.writesOk && c.readsOk && c.distinct && decide (c.builds = c.name) &&
    (c.params.all fun p => decide (p.name = "dimensions") || c.kept p) &&
    (c.reads.all fun r => decide (r.param = "dimensions" → r = .field "dimensions" .flts "dimensions" .required)) &&
    decide (.field "dimensions" .flts "dimensions" .required ∈ c.reads)) = true := by
  decide +kernel

theorem coupling_checked : (impedanceCoupling.params.all fun p =>
    (impedanceCoupling.reads.all fun r => decide (r.param = p.name → r = .field p.name .flts p.name .null)) &&
    decide (.field p.name .flts p.name .null ∈ impedanceCoupling.reads)) = true := by
  decide +kernel

theorem raising_checked : (raisingClasses.all fun c =>
    (c.reads.any fun r => c.params.all fun p => p.name ≠ r.param) ||
    (c.writes.any fun w => (c.params ++ c.extras).all fun p => p.name ≠ w.attr) ||
    (c.params.any fun p => p.required && c.reads.all fun r => r.param ≠ p.name)) = true := by
  decide +kernel

/-! ### The properties -/

/-- Every object of every class of the first table is restored as an object of its class with the
parameters it had. -/
theorem C122_restored (c : ClassDesc) (hc : c ∈ faithfulClasses) (lib : Lib) (dflt o : Config)
    (ho : c.Fits o) :
    ∃ o', restore lib dflt c o = .ok (c.name, o') ∧ ∀ p ∈ c.params, o' p.name = o p.name := by
  have h := List.all_eq_true.mp faithful_checked c hc
  simp only [Bool.and_eq_true, decide_eq_true_eq, List.all_eq_true] at h
  obtain ⟨⟨⟨⟨h1, h2⟩, _⟩, h4⟩, h5⟩ := h
  obtain ⟨o', e, hk, _⟩ := restore_ok (lib := lib) (dflt := dflt) h1 h2 ho
  exact ⟨o', h4 ▸ e, fun p hp => hk p (h5 p hp)⟩

/-- The same for the second table, except for the parameters listed there.  What is missing is in
`C122_lost_fails`. -/
theorem C122_kept_partial (e : ClassDesc × List String) (he : e ∈ lossyClasses) (lib : Lib)
    (dflt o : Config) (ho : e.1.Fits o) :
    ∃ o', restore lib dflt e.1 o = .ok (e.1.name, o') ∧
      ∀ p ∈ e.1.params, p.name ∉ e.2 → o' p.name = o p.name := by
  have h := List.all_eq_true.mp lossy_checked e he
  simp only [Bool.and_eq_true, decide_eq_true_eq, List.all_eq_true] at h
  obtain ⟨⟨⟨⟨h1, h2⟩, _⟩, h4⟩, h5⟩ := h
  obtain ⟨o', e', hk, _⟩ := restore_ok (lib := lib) (dflt := dflt) h1 h2 ho
  refine ⟨o', h4 ▸ e', fun p hp hn => hk p ?_⟩
  have := h5 p hp
  rwa [if_neg hn] at this

/-- Every parameter listed in the second table comes back different for some object of the class,
whatever the default of the parameter. -/
theorem C122_lost_fails (e : ClassDesc × List String) (he : e ∈ lossyClasses) (p : Param)
    (hp : p ∈ e.1.params) (hl : p.name ∈ e.2) (lib : Lib) (dflt : Config) :
    ∃ o, e.1.Fits o ∧ ∃ o', restore lib dflt e.1 o = .ok (e.1.name, o') ∧ o' p.name ≠ o p.name := by
  have h := List.all_eq_true.mp lossy_checked e he
  simp only [Bool.and_eq_true, decide_eq_true_eq, List.all_eq_true] at h
  obtain ⟨⟨⟨⟨h1, h2⟩, h3⟩, h4⟩, h5⟩ := h
  have hlost := h5 p hp
  rw [if_pos hl] at hlost
  obtain ⟨o, hf, o', e', hne⟩ := lost_differs (lib := lib) (dflt := dflt) h1 h2 h3 hp hlost
  exact ⟨o, hf, o', h4 ▸ e', hne⟩

/-- Objects of the third table come back as objects of another class. -/
theorem C122_class_fails (c : ClassDesc) (hc : c ∈ foreignClasses) (lib : Lib) (dflt o : Config)
    (ho : c.Fits o) : ∃ b o', restore lib dflt c o = .ok (b, o') ∧ b ≠ c.name := by
  have h := List.all_eq_true.mp foreign_checked c hc
  simp only [Bool.and_eq_true, decide_eq_true_eq] at h
  obtain ⟨⟨h1, h2⟩, h3⟩ := h
  obtain ⟨o', e, _⟩ := restore_ok (lib := lib) (dflt := dflt) h1 h2 ho
  exact ⟨_, o', e, h3⟩

/-- A fading model whose line of sight angle is given is restored. -/
theorem C122_angle_partial (c : ClassDesc) (hc : c ∈ angleClasses) (lib : Lib) (dflt o : Config)
    (ho : c.Fits o) (ha : o "los_angle" ≠ .none) :
    ∃ o', restore lib dflt c o = .ok (c.name, o') ∧ ∀ p ∈ c.params, o' p.name = o p.name := by
  have h := List.all_eq_true.mp angle_checked c hc
  simp only [Bool.and_eq_true, decide_eq_true_eq] at h
  obtain ⟨⟨⟨⟨⟨h1, h2⟩, h4⟩, h5⟩, _⟩, _⟩ := h
  have hf : (c.firm "los_angle").Fits o := by
    intro p hp
    simp only [ClassDesc.firm, List.mem_append, List.mem_map] at hp
    rcases hp with ⟨p', hp', rfl⟩ | hp
    · have := ho p' (List.mem_append_left _ hp')
      rw [Param.firm_name]
      rcases this with h | ⟨h, hn⟩
      · left
        rw [Param.firm]
        split <;> exact h
      · right
        refine ⟨?_, hn⟩
        rw [Param.firm, if_neg]
        · exact h
        · intro he
          exact ha (he ▸ hn)
    · exact ho p (List.mem_append_right _ hp)
  obtain ⟨o', e, hk, _⟩ := restore_ok (lib := lib) (dflt := dflt) h1 h2 hf
  rw [restore_firm] at e
  refine ⟨o', ?_, fun p hp => ?_⟩
  · rw [e, ← h4]
    rfl
  · have := hk (p.firm "los_angle")
      (List.all_eq_true.mp h5 _ (List.mem_map.mpr ⟨p, hp, rfl⟩))
    simpa using this

/-- A fading model whose line of sight angle is random (`None`) is never restored as such: storing
raises, or the angle is a number afterwards. -/
theorem C122_null_fails (c : ClassDesc) (hc : c ∈ angleClasses) (lib : Lib) (dflt o : Config) :
    ¬∃ b o', restore lib dflt c o = .ok (b, o') ∧ o' "los_angle" = .none := by
  rintro ⟨b, o', h, hn⟩
  have hh := List.all_eq_true.mp angle_checked c hc
  simp only [Bool.and_eq_true, decide_eq_true_eq, List.all_eq_true] at hh
  rcases restore_kind hh.2 hh.1.2 (Or.inl rfl) h with h | ⟨h, _⟩
  · rw [hn] at h
    cases h
  · cases h

/-- Uniform arrays are restored but for the type of their dimensions. -/
theorem C122_array_partial (c : ClassDesc) (hc : c ∈ uniformClasses) (lib : Lib) (dflt o : Config)
    (ho : c.Fits o) :
    ∃ o', restore lib dflt c o = .ok (c.name, o') ∧
      ∀ p ∈ c.params, p.name ≠ "dimensions" → o' p.name = o p.name := by
  have h := List.all_eq_true.mp uniform_checked c hc
  simp only [Bool.and_eq_true, decide_eq_true_eq, List.all_eq_true, Bool.or_eq_true] at h
  obtain ⟨⟨⟨⟨⟨⟨h1, h2⟩, _⟩, h4⟩, h5⟩, _⟩, _⟩ := h
  obtain ⟨o', e, hk, _⟩ := restore_ok (lib := lib) (dflt := dflt) h1 h2 ho
  refine ⟨o', h4 ▸ e, fun p hp hn => hk p ?_⟩
  rcases h5 p hp with h | h
  · exact absurd h hn
  · exact h

/-- The dimensions of a restored uniform array are never integers. -/
theorem C122_dimensions_fails (c : ClassDesc) (hc : c ∈ uniformClasses) (lib : Lib) (dflt o : Config)
    (b : String) (o' : Config) (h : restore lib dflt c o = .ok (b, o')) :
    ∀ l : List ℤ, o' "dimensions" ≠ .ints l := by
  intro l hn
  have hh := List.all_eq_true.mp uniform_checked c hc
  simp only [Bool.and_eq_true, decide_eq_true_eq, List.all_eq_true] at hh
  rcases restore_kind hh.2 hh.1.2 (Or.inl rfl) h with h | ⟨h, _⟩
  · rw [hn] at h
    cases h
  · cases h

/-- No parameter of a restored impedance coupling is an array of complex numbers, though all of them
are before. -/
theorem C122_complex_fails (lib : Lib) (dflt o : Config) (b : String) (o' : Config)
    (h : restore lib dflt impedanceCoupling o = .ok (b, o')) (p : Param)
    (hp : p ∈ impedanceCoupling.params) : p.kind = .cpxs ∧ ∀ l : List (ℚ × ℚ), o' p.name ≠ .cpxs l := by
  refine ⟨?_, fun l hn => ?_⟩
  · have : ∀ p ∈ impedanceCoupling.params, p.kind = .cpxs := by decide
    exact this p hp
  · have hh := List.all_eq_true.mp coupling_checked p hp
    simp only [Bool.and_eq_true, decide_eq_true_eq, List.all_eq_true] at hh
    rcases restore_kind hh.2 hh.1 (Or.inr rfl) h with h | ⟨_, h⟩
    · rw [hn] at h
      cases h
    · rw [hn] at h
      cases h

/-- No object of the classes of the last table is ever restored. -/
theorem C122_raise_fails (c : ClassDesc) (hc : c ∈ raisingClasses) (lib : Lib) (dflt o : Config) :
    ∃ e, restore lib dflt c o = .error e := by
  have h := List.all_eq_true.mp raising_checked c hc
  simp only [Bool.or_eq_true, Bool.and_eq_true, List.any_eq_true, List.all_eq_true,
    decide_eq_true_eq] at h
  rcases h with (⟨r, hr, h⟩ | ⟨w, hw, h⟩) | ⟨p, hp, hq, h⟩
  · exact restore_unknown ⟨r, hr, h⟩ lib dflt o
  · exact restore_unset ⟨w, hw, h⟩ lib dflt o
  · exact restore_missing ⟨p, hp, hq, h⟩ lib dflt o

/-! ### The hypotheses can be met -/

/-- Every class of the tables has objects. -/
theorem C122_inhabited (c : ClassDesc)
    (hc : c ∈ faithfulClasses ∨ c ∈ lossyClasses.map Prod.fst ∨ c ∈ uniformClasses) : ∃ o, c.Fits o := by
  have hd : c.distinct = true := by
    rcases hc with hc | hc | hc
    · have h := List.all_eq_true.mp faithful_checked c hc
      simp only [Bool.and_eq_true] at h
      exact h.1.1.2
    · obtain ⟨e, he, rfl⟩ := List.mem_map.mp hc
      have h := List.all_eq_true.mp lossy_checked e he
      simp only [Bool.and_eq_true] at h
      exact h.1.1.2
    · have h := List.all_eq_true.mp uniform_checked c hc
      simp only [Bool.and_eq_true] at h
      exact h.1.1.1.1.2
  by_cases h : c.params ++ c.extras = []
  · exact ⟨fun _ => .none, by simp [ClassDesc.Fits, h]⟩
  · obtain ⟨p, hp⟩ := List.exists_mem_of_ne_nil _ h
    exact ⟨_, sample_update_fits hd hp (Or.inl (Kind.two_spec p.kind).1)⟩

/-- The lists of lost parameters name parameters, and none is empty. -/
example : (lossyClasses.all fun e => !e.2.isEmpty && e.2.all fun q => e.1.params.any fun p => p.name = q)
    = true := by decide +kernel

/-- The number of classes described. -/
example : faithfulClasses.length = 155 ∧ lossyClasses.length = 72 := by decide +kernel

/-- A library which writes `None` as `nan`, drops imaginary parts and knows one text. -/
def someLib : Lib := ⟨.ok Option.none, fun l => .ok (l.map Prod.fst), fun _ => ""⟩

/-- A capon beamformer keeps its loading. -/
example : ∃ o', restore someLib (fun _ => .flt (some 0)) caponBeamformer (fun _ => .flt (some 3)) =
    .ok ("CaponBeamformer", o') ∧ o' "loading" = .flt (some 3) := ⟨_, rfl, rfl⟩

/-- An ideal channel stored with the seed 42 has no seed once restored. -/
example : ∃ o', restore someLib (fun _ => .none) idealChannel
      (fun q => if q = "seed" then .int 42 else .flt (some 2)) = .ok ("IdealChannel", o') ∧
    o' "seed" = .none ∧ o' "gain" = .flt (some 2) := ⟨_, rfl, rfl, rfl⟩

/-- A mapped pilot sequence comes back as a custom one. -/
example : ∃ o', restore someLib (fun _ => .none) mappedPilotSymbolSequence
      (fun _ => .cpxs [(1, 0), (0, 1)]) = .ok ("CustomPilotSymbolSequence", o') := ⟨_, rfl⟩

/-- The line of sight angle of a fading model may be `None` or a number. -/
example : ∀ c ∈ angleClasses, ∃ o, c.Fits o ∧ o "los_angle" = .none := by
  have h : ∀ c ∈ angleClasses, c.distinct = true ∧ ⟨"los_angle", .flt, true, false⟩ ∈ c.params := by
    decide +kernel
  intro c hc
  exact ⟨_, sample_update_fits (h c hc).1 (List.mem_append_left _ (h c hc).2) (Or.inr ⟨rfl, rfl⟩), by simp⟩

example : ∀ c ∈ angleClasses, ∃ o, c.Fits o ∧ o "los_angle" ≠ .none := by
  have h : ∀ c ∈ angleClasses, c.distinct = true ∧ ⟨"los_angle", .flt, true, false⟩ ∈ c.params := by
    decide +kernel
  intro c hc
  exact ⟨_, sample_update_fits (v := .flt (some 1)) (h c hc).1 (List.mem_append_left _ (h c hc).2)
    (Or.inl rfl), by simp⟩

/-- A two by two array has dimensions `2.0`. -/
example : ∃ o', restore someLib (fun _ => .none) uniformArray (fun q =>
      if q = "dimensions" then .ints [2, 2, 1] else if q = "element" then .obj 0
      else if q = "spacing" then .flt (some 1) else .flts []) = .ok ("UniformArray", o') ∧
    o' "dimensions" = .flts [2, 2, 1] := ⟨_, rfl, by decide +kernel⟩

/-- Coupling by purely imaginary impedances comes back as no coupling. -/
example : ∃ o', restore someLib (fun _ => .none) impedanceCoupling (fun _ => .cpxs [(0, 1)]) =
    .ok ("ImpedanceCoupling", o') ∧ o' "transmit_impedance" = .flts [0] := ⟨_, rfl, rfl⟩

end Verif.Schema
