import Verif.Channel.FadingStats
import Verif.Channel.ConsistentStats
import Verif.Channel.ConsistentProps

/-!
# Multipath fading channels

`hermespy/channel/fading/fading.py`: construction and configuration of `MultipathFadingChannel`, the variables it
draws from, its samples and its serialization (C76).

Simplifications: profiles are lists, hence vectors (lines 678-683 refuse other arrays); rice factors are real or
infinite (`none`), other numbers are finite; `np.argsort` is an argument of which the theorems assume what numpy
promises; the state of the random generators is an argument (`draw`, scalars).
-/

namespace Verif.Fading

open Finset Verif.Channel.State Verif.Consistent

/-! ## Construction -/

/-- A float that is written to and read from a file: a number or NaN. -/
inductive Flt
  | num (x : ℝ)
  | nan

/-- Attributes of `MultipathFadingChannel`, fading.py 594-604 and 739-754; the five variables are those of the
generator, in order. `none` is `None` for the line of sight parameters and infinity for the correlation distance and
a rice factor; a gain that is not finite is `none`. -/
structure Channel where
  delays : List ℚ
  power : List ℝ
  rice : List (Option ℝ)
  sinus : Nat
  losAngle : Option ℝ
  doppler : ℝ
  losDoppler : Option Flt
  maxDelay : ℚ
  losGain : List ℝ
  nlosGain : List (Option ℝ)
  distance : Option ℝ
  gain : ℝ
  vars : List Var

/-- Arguments of the constructor, fading.py 606-619. -/
structure Args where
  delays : List ℚ
  power : List ℝ
  rice : List (Option ℝ)
  distance : Option ℝ
  sinus : Nat
  losAngle : Option ℝ
  doppler : ℝ
  losDoppler : Option Flt
  gain : ℝ

/-- `array[sorting]`. -/
def gather {α : Type} (dflt : α) (sorting : List Nat) (l : List α) : List α := sorting.map fun k => l.getD k dflt

/-- The line of sight gain of one path, fading.py 726-729. -/
noncomputable def losGainOf : Option ℝ → ℝ
  | none => 1
  | some k => Real.sqrt (k / (1 + k))

/-- The gain of the sinusoids of one path, fading.py 730-733. Without sinusoids numpy divides by zero. -/
noncomputable def nlosGainOf (N : Nat) : Option ℝ → Option ℝ
  | none => some 0
  | some k => if N = 0 then none else some (Real.sqrt (1 / ((1 + k) * N)))

/-- The statements by which the constructor creates its generator and variables, fading.py 739-754. The condition of
line 745 always holds: `los_angle` has been set on line 713. -/
def creation (L N : Nat) : List Op :=
  [.newGen, .newVar (some [10, 10]) 0, .add 0 0, .newVar (some [L]) 0, .add 0 1, .newVar (some [L, N]) 0, .add 0 2,
    .newVar (some [L]) 0, .add 0 3, .newVar (some [L, N]) 0, .add 0 4]

open Classical in
/-- `__init__`, fading.py 669-754. `draw` is the number of line 713, `sorting` the outcome of line 707. Line 704
refuses negative gains (channel/channel.py 818-819), line 737 negative distances (767-768). -/
noncomputable def construct (a : Args) (draw : ℝ) (sorting : List Nat) : Except PyErr Channel :=
  if a.delays.length < 1 then .error .value
  else if a.delays.length ≠ a.power.length ∨ a.power.length ≠ a.rice.length then .error .value
  else if ∃ d ∈ a.delays, d < 0 then .error .value
  else if ∃ g ∈ a.power, g < 0 then .error .value
  else if ∃ k ∈ a.rice, ∃ v, k = some v ∧ v < 0 then .error .value
  else if a.gain < 0 then .error .value
  else
    let delays := gather 0 sorting a.delays
    let rice := gather none sorting a.rice
    if ∃ r, a.distance = some r ∧ r < 0 then .error .value
    else .ok
      { delays := delays
        power := gather 0 sorting a.power
        rice := rice
        sinus := a.sinus
        losAngle := some (a.losAngle.getD draw)
        doppler := a.doppler
        losDoppler := a.losDoppler
        maxDelay := delays.foldl max (delays.headD 0)
        losGain := rice.map losGainOf
        nlosGain := rice.map (nlosGainOf a.sinus)
        distance := a.distance
        gain := a.gain
        vars := (run (creation delays.length a.sinus)).vars }

/-- What `np.argsort` promises: a permutation of the indices that sorts the values. -/
def Argsort (sorting : List Nat) (l : List ℚ) : Prop :=
  sorting.Perm (List.range l.length) ∧ (gather 0 sorting l).Pairwise (· ≤ ·)

theorem gather_perm {α : Type} (dflt : α) {sorting : List Nat} {l : List α} (h : sorting.Perm (List.range l.length)) :
    (gather dflt sorting l).Perm l := by
  have h1 := h.map fun k => l.getD k dflt
  have h2 : (List.range l.length).map (fun k => l.getD k dflt) = l := by
    refine List.ext_getElem (by simp) fun i h1 h2 => ?_
    simp [List.getD_eq_getElem?_getD, List.getElem?_eq_getElem h2]
  rw [h2] at h1
  exact h1

theorem gather_length {α : Type} (dflt : α) {sorting : List Nat} {n : Nat} (l : List α)
    (h : sorting.Perm (List.range n)) : (gather dflt sorting l).length = n := by
  have := h.length_eq
  simp only [List.length_range] at this
  simp [gather, this]

/-- The configurations the documentation allows, fading.py 661-667. -/
def Valid (a : Args) : Prop :=
  1 ≤ a.delays.length ∧ a.power.length = a.delays.length ∧ a.rice.length = a.delays.length ∧ (∀ d ∈ a.delays, 0 ≤ d) ∧
    (∀ g ∈ a.power, 0 ≤ g) ∧ (∀ k v, some v = k → k ∈ a.rice → 0 ≤ v) ∧ 0 ≤ a.gain ∧
    ∀ r, a.distance = some r → 0 ≤ r

/-- C76: exactly the configurations the documentation allows are accepted, all others raise a `ValueError`. -/
theorem C76_construct (a : Args) (draw : ℝ) (sorting : List Nat) :
    (Valid a → ∃ ch, construct a draw sorting = .ok ch) ∧
    (¬ Valid a → construct a draw sorting = .error .value) := by
  unfold construct Valid
  dsimp only
  split_ifs with h1 h2 h3 h4 h5 h6 h7
  · exact ⟨fun h => by omega, fun _ => rfl⟩
  · exact ⟨fun h => by omega, fun _ => rfl⟩
  · obtain ⟨d, hd, h⟩ := h3
    exact ⟨fun hv => absurd (hv.2.2.2.1 d hd) (not_le.mpr h), fun _ => rfl⟩
  · obtain ⟨g, hg, h⟩ := h4
    exact ⟨fun hv => absurd (hv.2.2.2.2.1 g hg) (not_le.mpr h), fun _ => rfl⟩
  · obtain ⟨k, hk, v, e, h⟩ := h5
    exact ⟨fun hv => absurd (hv.2.2.2.2.2.1 k v e.symm hk) (not_le.mpr h), fun _ => rfl⟩
  · exact ⟨fun hv => absurd hv.2.2.2.2.2.2.1 (not_le.mpr h6), fun _ => rfl⟩
  · obtain ⟨r, hr, h⟩ := h7
    exact ⟨fun hv => absurd (hv.2.2.2.2.2.2.2 r hr) (not_le.mpr h), fun _ => rfl⟩
  · push Not at h1 h2 h3 h4 h5 h6 h7
    refine ⟨fun _ => ⟨_, rfl⟩, fun hv => absurd ?_ hv⟩
    exact ⟨h1, h2.1.symm, by omega, h3, h4, fun k v e hk => h5 k hk v e.symm, h6, h7⟩

/-- What construction leaves behind. -/
theorem construct_ok {a : Args} {draw : ℝ} {sorting : List Nat} {ch : Channel} (h : construct a draw sorting = .ok ch) :
    Valid a ∧ ch =
      { delays := gather 0 sorting a.delays
        power := gather 0 sorting a.power
        rice := gather none sorting a.rice
        sinus := a.sinus
        losAngle := some (a.losAngle.getD draw)
        doppler := a.doppler
        losDoppler := a.losDoppler
        maxDelay := (gather 0 sorting a.delays).foldl max ((gather 0 sorting a.delays).headD 0)
        losGain := (gather none sorting a.rice).map losGainOf
        nlosGain := (gather none sorting a.rice).map (nlosGainOf a.sinus)
        distance := a.distance
        gain := a.gain
        vars := (run (creation (gather 0 sorting a.delays).length a.sinus)).vars } := by
  constructor
  · by_contra hv
    rw [(C76_construct a draw sorting).2 hv] at h
    cases h
  · unfold construct at h
    dsimp only at h
    split_ifs at h
    exact (Except.ok.inj h).symm

/-- The profile as it is meant: triples of delay, power and rice factor. -/
def triples (d : List ℚ) (g : List ℝ) (k : List (Option ℝ)) : List (ℚ × ℝ × Option ℝ) := d.zip (g.zip k)

theorem triples_gather {sorting : List Nat} {d : List ℚ} {g : List ℝ} {k : List (Option ℝ)}
    (h : sorting.Perm (List.range d.length)) (hg : g.length = d.length) (hk : k.length = d.length) :
    triples (gather 0 sorting d) (gather 0 sorting g) (gather none sorting k) =
      gather (0, 0, none) sorting (triples d g k) := by
  refine List.ext_getElem (by simp [triples, gather]) fun i h1 h2 => ?_
  have hi : i < sorting.length := by simpa [gather] using h2
  have hs : sorting[i] < d.length := List.mem_range.mp (h.mem_iff.mp (List.getElem_mem hi))
  simp [triples, gather, List.getD_eq_getElem?_getD, hs, hg, hk]

theorem foldl_max_ge (l : List ℚ) (m : ℚ) : m ≤ l.foldl max m ∧ ∀ d ∈ l, d ≤ l.foldl max m := by
  induction l generalizing m with
  | nil => simp
  | cons x l ih =>
    have := ih (max m x)
    simp only [List.foldl_cons, List.mem_cons, forall_eq_or_imp]
    exact ⟨(le_max_left _ _).trans this.1, (le_max_right _ _).trans this.1, this.2⟩

theorem foldl_max_in (l : List ℚ) (m : ℚ) : l.foldl max m = m ∨ l.foldl max m ∈ l := by
  induction l generalizing m with
  | nil => simp
  | cons x l ih =>
    simp only [List.foldl_cons, List.mem_cons]
    rcases ih (max m x) with h | h
    · rcases max_choice m x with e | e <;> rw [e] at h ⊢ <;> tauto
    · tauto

/-- C76: the profile of the channel is the configured one, path by path, in the order of the delays; the maximum delay
is the largest one of the configuration. -/
theorem C76_profile (a : Args) (draw : ℝ) (sorting : List Nat) (ch : Channel) (hs : Argsort sorting a.delays)
    (h : construct a draw sorting = .ok ch) :
    (triples ch.delays ch.power ch.rice).Perm (triples a.delays a.power a.rice) ∧
    ch.delays.length = a.delays.length ∧ ch.power.length = a.delays.length ∧ ch.rice.length = a.delays.length ∧
    ch.delays.Pairwise (· ≤ ·) ∧ ch.maxDelay ∈ a.delays ∧ ∀ d ∈ a.delays, d ≤ ch.maxDelay := by
  obtain ⟨hv, rfl⟩ := construct_ok h
  obtain ⟨h0, hg, hk, _⟩ := hv
  have hp := gather_perm (0 : ℚ) hs.1
  refine ⟨?_, gather_length _ _ hs.1, gather_length _ _ hs.1, gather_length _ _ hs.1, hs.2, ?_, ?_⟩
  · dsimp only
    rw [triples_gather hs.1 hg hk]
    refine gather_perm _ ?_
    have : (triples a.delays a.power a.rice).length = a.delays.length := by simp [triples, hg, hk]
    rw [this]
    exact hs.1
  · dsimp only
    rcases foldl_max_in (gather 0 sorting a.delays) ((gather 0 sorting a.delays).headD 0) with e | e
    · rw [e]
      have hne : gather 0 sorting a.delays ≠ [] := by
        intro e
        have := gather_length (0 : ℚ) a.delays hs.1
        rw [e] at this
        simp only [List.length_nil] at this
        omega
      obtain ⟨x, l, e'⟩ := List.exists_cons_of_ne_nil hne
      rw [e', List.headD_cons]
      refine hp.mem_iff.mp ?_
      rw [e']
      exact List.mem_cons_self
    · exact hp.mem_iff.mp e
  · intro d hd
    exact (foldl_max_ge _ _).2 d (hp.mem_iff.mpr hd)

/-- Two paths given in the wrong order. -/
noncomputable def someArgs : Args where
  delays := [3, 1]
  power := [1 / 4, 3 / 4]
  rice := [some 0, none]
  distance := some 20
  sinus := 4
  losAngle := some 1
  doppler := 5
  losDoppler := none
  gain := 2

theorem someArgs_valid : Valid someArgs := by
  refine ⟨by norm_num [someArgs], rfl, rfl, ?_, ?_, ?_, by norm_num [someArgs], ?_⟩
  · intro d hd
    simp only [someArgs, List.mem_cons, List.not_mem_nil, or_false] at hd
    rcases hd with rfl | rfl <;> norm_num
  · intro d hd
    simp only [someArgs, List.mem_cons, List.not_mem_nil, or_false] at hd
    rcases hd with rfl | rfl <;> norm_num
  · rintro k v rfl hk
    simp only [someArgs, List.mem_cons, List.not_mem_nil, or_false] at hk
    rcases hk with hk | hk
    · rw [Option.some.inj hk]
    · cases hk
  · intro r hr
    rw [← Option.some.inj hr]
    norm_num

theorem someArgs_argsort : Argsort [1, 0] someArgs.delays := by
  refine ⟨List.Perm.swap _ _ _, ?_⟩
  simp [someArgs, gather]

example : ∃ ch, construct someArgs 0 [1, 0] = .ok ch ∧ Argsort [1, 0] someArgs.delays :=
  ((C76_construct someArgs 0 [1, 0]).1 someArgs_valid).imp fun _ h => ⟨h, someArgs_argsort⟩

example : ¬ Valid { someArgs with delays := [3, -1] } := by
  intro h
  have := h.2.2.2.1 (-1) (by simp)
  norm_num at this

/-! ## Gains -/

/-- C76: the gains of every path split unit power between line of sight and sinusoids in the ratio of the rice factor,
for every positive number of sinusoids. Without sinusoids: `C76_sinusoids_fails`. -/
theorem C76_gains (a : Args) (draw : ℝ) (sorting : List Nat) (ch : Channel) (hs : Argsort sorting a.delays)
    (h : construct a draw sorting = .ok ch) (hN : 0 < a.sinus) (p : Nat) (hp : p < a.delays.length) :
    ∃ l n : ℝ, ch.losGain[p]? = some l ∧ ch.nlosGain[p]? = some (some n) ∧ 0 ≤ l ∧ 0 ≤ n ∧
      l ^ 2 + a.sinus * n ^ 2 = 1 ∧
      (∀ k, ch.rice[p]? = some (some k) → l ^ 2 = k * (a.sinus * n ^ 2)) ∧ (ch.rice[p]? = some none → n = 0) := by
  obtain ⟨hv, rfl⟩ := construct_ok h
  have hl : (gather none sorting a.rice).length = a.delays.length := gather_length _ _ hs.1
  have hr : ∃ r, (gather none sorting a.rice)[p]? = some r := ⟨_, List.getElem?_eq_getElem (by omega)⟩
  obtain ⟨r, hr⟩ := hr
  dsimp only
  rw [List.getElem?_map, List.getElem?_map, hr]
  have hN' : (a.sinus : ℝ) ≠ 0 := by exact_mod_cast hN.ne'
  have hN0 : (0 : ℝ) ≤ a.sinus := Nat.cast_nonneg _
  cases r with
  | none =>
    refine ⟨1, 0, rfl, rfl, by norm_num, le_refl _, by norm_num, ?_, fun _ => rfl⟩
    intro k hk
    cases Option.some.inj hk
  | some k =>
    have hk0 : 0 ≤ k := by
      refine hv.2.2.2.2.2.1 _ k rfl ?_
      have hperm := gather_perm (none : Option ℝ) (sorting := sorting) (l := a.rice) (by rw [hv.2.2.1]; exact hs.1)
      exact hperm.mem_iff.mp (List.mem_of_getElem? hr)
    have h1 : 0 ≤ k / (1 + k) := by positivity
    have h2 : 0 ≤ 1 / ((1 + k) * a.sinus) := by positivity
    have h3 : (1 + k) ≠ 0 := by positivity
    refine ⟨Real.sqrt (k / (1 + k)), Real.sqrt (1 / ((1 + k) * a.sinus)), rfl, ?_, Real.sqrt_nonneg _,
      Real.sqrt_nonneg _, ?_, ?_, ?_⟩
    · simp [nlosGainOf, hN.ne']
    · rw [Real.sq_sqrt h1, Real.sq_sqrt h2]
      field_simp
      ring
    · intro k' hk'
      rw [Real.sq_sqrt h1, Real.sq_sqrt h2, ← Option.some.inj (Option.some.inj hk')]
      field_simp
    · intro e
      cases Option.some.inj e

/-- `num_sinusoids = num`, fading.py 873-878. -/
def Channel.setSinus (ch : Channel) (num : Int) : Except PyErr Channel :=
  if num < 0 then .error .value else .ok { ch with sinus := num.toNat }

/-! ## Samples -/

/-- `los_doppler_frequency`, fading.py 829-839. -/
noncomputable def Channel.sightDoppler (ch : Channel) : Flt := ch.losDoppler.getD (.num ch.doppler)

/-- The link of a sample: antennas of both arrays, receiving and transmitting ones, bandwidth and time. -/
structure Link where
  nRx : Nat
  nTx : Nat
  numRx : Nat
  numTx : Nat
  bandwidth : ℚ
  time : ℚ

/-- `_realize`, fading.py 893-910, and `_sample`, 468-515, without a correlation model, for the scalars of the
consistent realization. `none`: gains or Doppler frequencies that are not finite, every sample is NaN. -/
noncomputable def Channel.sample (ch : Channel) (scalars : List ℝ) (k : Link) : Except PyErr (Option Sample) :=
  match ch.vars with
  | [v0, v1, v2, v3, v4] =>
    match v0.uniform scalars, v1.uniform scalars, v2.uniform scalars, v3.uniform scalars, v4.uniform scalars with
    | .ok u0, .ok u1, .ok u2, .ok u3, .ok u4 =>
      match spatialResponse (fun r t => u0.getD (r * 10 + t) 0) k.nRx k.nTx none with
      | .error e => .error e
      | .ok (srx, stx, resp) =>
        let N := v2.shape.getD 1 0
        match ch.nlosGain.mapM id, ch.sightDoppler with
        | some g, .num f => .ok (some
          { paths := ch.power.length
            sinus := N
            power := fun p => ch.power.getD p 0
            delay := fun p => ch.delays.getD p 0
            losAngle := fun p => 2 * Real.pi * u1.getD p 0
            nlosAngle := fun p n => -Real.pi + 2 * Real.pi * u2.getD (p * N + n) 0
            losPhase := fun p => -Real.pi + 2 * Real.pi * u3.getD p 0
            nlosPhase := fun p n => -Real.pi + 2 * Real.pi * u4.getD (p * N + n) 0
            losGain := fun p => ch.losGain.getD p 0
            nlosGain := fun p => g.getD p 0
            losDoppler := f
            nlosDoppler := ch.doppler
            srx := srx
            stx := stx
            resp := resp
            gain := ch.gain
            bandwidth := k.bandwidth
            time := k.time
            numRx := k.numRx
            numTx := k.numTx })
        | _, _ => .ok none
    | _, _, _, _, _ => .error .value
  | _ => .error .attribute

theorem creation_world (L N : Nat) : (run (creation L N)).vars =
      [⟨[10, 10], 0⟩, ⟨[L], 100⟩, ⟨[L, N], 100 + L⟩, ⟨[L], 100 + L + L * N⟩, ⟨[L, N], 100 + L + L * N + L⟩] ∧
    (run (creation L N)).gens = [⟨100 + L + L * N + L + L * N, [0, 1, 2, 3, 4]⟩] := by
  simp [creation, run, step, addVariable, Var.new, Var.size]

/-- C76: each path owns its scalars. The realization of a constructed channel has `100 + 2L + 2LN` scalars. -/
theorem C76_variables (L N : Nat) : ∃ gen, (run (creation L N)).gens = [gen] ∧
    numScalars (run (creation L N)) gen = 100 + 2 * L + 2 * (L * N) := by
  obtain ⟨h1, h2⟩ := creation_world L N
  refine ⟨_, h2, ?_⟩
  simp only [numScalars, h1]
  simp [Var.size]
  ring

theorem getD_lt {α : Type} (l : List α) (d : α) {i : Nat} (h : i < l.length) : l.getD i d = l[i] := by
  simp [List.getD_eq_getElem?_getD, h]

theorem uniform_get (v : Var) (o : Nat) (scalars : List ℝ) (ho : v.offset = o) (h : o + v.size ≤ scalars.length) :
    ∃ u, v.uniform scalars = .ok u ∧ ∀ k < v.size, u.getD k 0 = normCdf (scalars.getD (o + k) 0) := by
  refine ⟨_, by rw [Var.uniform, sample_inside v o scalars ho h]; rfl, fun k hk => ?_⟩
  have h1 : o + k < scalars.length := by omega
  simp [List.getD_eq_getElem?_getD, hk, List.getElem?_eq_getElem h1]

theorem sum_getD (l : List ℝ) : ∑ p ∈ range l.length, l.getD p 0 = l.sum := by
  induction l with
  | nil => simp
  | cons x l ih =>
    rw [List.length_cons, Finset.sum_range_succ', List.sum_cons, ← ih, add_comm]
    simp

theorem mapM_id (l : List (Option ℝ)) (h : ∀ x ∈ l, x ≠ none) : ∃ g : List ℝ, l.mapM id = some g ∧ l = g.map some := by
  induction l with
  | nil => exact ⟨[], rfl, rfl⟩
  | cons x l ih =>
    obtain ⟨g, h1, h2⟩ := ih fun y hy => h y (List.mem_cons_of_mem _ hy)
    cases x with
    | none => exact absurd rfl (h none List.mem_cons_self)
    | some x => exact ⟨x :: g, by simp [List.mapM_cons, h1], by simp [h2]⟩

theorem mapM_none (l : List (Option ℝ)) (h : none ∈ l) : l.mapM id = none := by
  induction l with
  | nil => cases h
  | cons x l ih =>
    rw [List.mem_cons] at h
    rw [List.mapM_cons]
    rcases h with rfl | h
    · rfl
    · rw [ih h]
      cases x <;> rfl

/-- C76: samples of a constructed channel. Every angle and phase is a uniform transform of a scalar of its own, angles
of the line of sight within `(0, 2π)`, all others within `(-π, π)`; the configured powers, gains and Doppler frequencies
arrive in the sample, a missing line of sight Doppler frequency is the common one; and the sample meets the assumptions
of `C75_energy`, so that the energy a signal is scaled with is in the mean the configured gain times the sum of
the configured powers. -/
theorem C76_sample (a : Args) (draw : ℝ) (sorting : List Nat) (ch : Channel) (hs : Argsort sorting a.delays)
    (h : construct a draw sorting = .ok ch) (hN : 0 < a.sinus) (f : ℝ)
    (hf : a.losDoppler = some (.num f) ∨ a.losDoppler = none ∧ f = a.doppler) (scalars : List ℝ)
    (hl : scalars.length = 100 + 2 * a.delays.length + 2 * (a.delays.length * a.sinus)) (k : Link) :
    ∃ s, ch.sample scalars k = .ok (some s) ∧ s.paths = a.delays.length ∧ s.sinus = a.sinus ∧
      s.losDoppler = f ∧ s.nlosDoppler = a.doppler ∧ s.gain = a.gain ∧
      (∀ p < s.paths,
        s.losAngle p = 2 * Real.pi * normCdf (scalars.getD (100 + p) 0) ∧
        s.losPhase p = -Real.pi + 2 * Real.pi *
          normCdf (scalars.getD (100 + a.delays.length + a.delays.length * a.sinus + p) 0) ∧
        s.losAngle p ∈ Set.Ioo 0 (2 * Real.pi) ∧ s.losPhase p ∈ Set.Ioo (-Real.pi) Real.pi ∧
        ∀ n < s.sinus,
          s.nlosAngle p n = -Real.pi + 2 * Real.pi *
            normCdf (scalars.getD (100 + a.delays.length + (p * a.sinus + n)) 0) ∧
          s.nlosPhase p n = -Real.pi + 2 * Real.pi *
            normCdf (scalars.getD (100 + 2 * a.delays.length + a.delays.length * a.sinus + (p * a.sinus + n)) 0) ∧
          s.nlosAngle p n ∈ Set.Ioo (-Real.pi) Real.pi ∧ s.nlosPhase p n ∈ Set.Ioo (-Real.pi) Real.pi) ∧
      s.srx = min 10 k.nRx ∧ s.stx = min 10 k.nTx ∧
      (∀ r < s.srx, ∀ t < s.stx, s.resp r t =
        Complex.exp (2 * Complex.I * Real.pi * (normCdf (scalars.getD (r * 10 + t) 0) : ℝ))) ∧
      (∀ p < s.paths, (s.delay p, s.power p) ∈ a.delays.zip a.power) ∧
      0 ≤ s.gain ∧ (∀ p, 0 ≤ s.power p) ∧ (∀ p < s.paths, s.losGain p ^ 2 + s.sinus * s.nlosGain p ^ 2 = 1) ∧
      s.energyScale = a.gain * a.power.sum := by
  have hgains := C76_gains a draw sorting ch hs h hN
  have hprof := C76_profile a draw sorting ch hs h
  obtain ⟨hv, he⟩ := construct_ok h
  have hL : (gather (0 : ℚ) sorting a.delays).length = a.delays.length := gather_length _ _ hs.1
  have hvars : ch.vars = [⟨[10, 10], 0⟩, ⟨[a.delays.length], 100⟩, ⟨[a.delays.length, a.sinus], 100 + a.delays.length⟩,
      ⟨[a.delays.length], 100 + a.delays.length + a.delays.length * a.sinus⟩, ⟨[a.delays.length, a.sinus],
        100 + a.delays.length + a.delays.length * a.sinus + a.delays.length⟩] := by
    rw [he]
    dsimp only
    rw [hL, (creation_world _ _).1]
  obtain ⟨u0, e0, g0⟩ := uniform_get ⟨[10, 10], 0⟩ 0 scalars rfl (by simp [Var.size]; omega)
  obtain ⟨u1, e1, g1⟩ := uniform_get ⟨[a.delays.length], 100⟩ 100 scalars rfl (by simp [Var.size]; omega)
  obtain ⟨u2, e2, g2⟩ := uniform_get ⟨[a.delays.length, a.sinus], 100 + a.delays.length⟩ (100 + a.delays.length) scalars
    (by push_cast; rfl) (by simp [Var.size]; omega)
  obtain ⟨u3, e3, g3⟩ := uniform_get ⟨[a.delays.length], 100 + a.delays.length + a.delays.length * a.sinus⟩
    (100 + a.delays.length + a.delays.length * a.sinus) scalars (by push_cast; rfl) (by simp [Var.size]; omega)
  obtain ⟨u4, e4, g4⟩ := uniform_get ⟨[a.delays.length, a.sinus],
      100 + a.delays.length + a.delays.length * a.sinus + a.delays.length⟩
    (100 + a.delays.length + a.delays.length * a.sinus + a.delays.length) scalars (by push_cast; rfl)
    (by simp [Var.size]; omega)
  have hlen : ch.losGain.length = a.delays.length ∧ ch.nlosGain.length = a.delays.length := by
    rw [he]
    simp [gather_length _ _ hs.1]
  obtain ⟨g, hg1, hg2⟩ := mapM_id ch.nlosGain (by
    intro x hx
    obtain ⟨p, hp, rfl⟩ := List.getElem_of_mem hx
    obtain ⟨l, n, _, h2, _⟩ := hgains p (by omega)
    rw [List.getElem?_eq_getElem hp] at h2
    rw [Option.some.inj h2]
    simp)
  have hsd : ch.sightDoppler = .num f := by
    unfold Channel.sightDoppler
    rw [he]
    rcases hf with hf | ⟨hf, rfl⟩ <;> simp [hf]
  have hrange : ∀ x : ℝ, -Real.pi + 2 * Real.pi * normCdf x ∈ Set.Ioo (-Real.pi) Real.pi := by
    intro x
    have := normCdf_range x
    have hpi := Real.pi_pos
    exact ⟨by nlinarith, by nlinarith⟩
  have hpow0 : ∀ p, 0 ≤ ch.power.getD p 0 := by
    intro p
    rw [List.getD_eq_getElem?_getD]
    by_cases hp : p < ch.power.length
    · rw [List.getElem?_eq_getElem hp]
      have hperm : ch.power.Perm a.power := by
        rw [he]
        exact gather_perm _ (by rw [hv.2.1]; exact hs.1)
      exact hv.2.2.2.2.1 _ (hperm.mem_iff.mp (List.getElem_mem hp))
    · rw [List.getElem?_eq_none (by omega)]
      simp
  refine ⟨_, by simp only [Channel.sample, hvars, e0, e1, e2, e3, e4, hg1, hsd, spatialResponse]; rfl, hprof.2.2.1, rfl,
    rfl, by rw [he], by rw [he], ?_, rfl, rfl, ?_, ?_, ?_, hpow0, ?_, ?_⟩
  · intro p hp
    dsimp only at hp ⊢
    rw [hprof.2.2.1] at hp
    rw [g1 p (by simpa [Var.size] using hp), g3 p (by simpa [Var.size] using hp)]
    refine ⟨rfl, rfl, ?_, hrange _, fun n hn => ?_⟩
    · have := normCdf_range (scalars.getD (100 + p) 0)
      have hpi := Real.pi_pos
      exact ⟨by nlinarith, by nlinarith⟩
    · have hn' : n < a.sinus := hn
      have hi : p * a.sinus + n < a.delays.length * a.sinus := by
        have : (p + 1) * a.sinus ≤ a.delays.length * a.sinus := Nat.mul_le_mul_right _ hp
        rw [Nat.add_mul] at this
        omega
      have hsh : ([a.delays.length, a.sinus] : List Nat).getD 1 0 = a.sinus := rfl
      rw [hsh, g2 _ (by simpa [Var.size] using hi), g4 _ (by simpa [Var.size] using hi)]
      refine ⟨rfl, ?_, hrange _, hrange _⟩
      rw [show 100 + a.delays.length + a.delays.length * a.sinus + a.delays.length + (p * a.sinus + n) =
        100 + 2 * a.delays.length + a.delays.length * a.sinus + (p * a.sinus + n) by ring]
  · intro r hr t ht
    dsimp only at hr ht ⊢
    rw [g0 _ (by simp [Var.size]; omega), Nat.zero_add]
  · intro p hp
    dsimp only at hp ⊢
    have hpz := hprof.1.map fun x : ℚ × ℝ × Option ℝ => (x.1, x.2.1)
    have hz : ∀ (d : List ℚ) (g : List ℝ) (k : List (Option ℝ)), g.length = d.length → k.length = d.length →
        (triples d g k).map (fun x : ℚ × ℝ × Option ℝ => (x.1, x.2.1)) = d.zip g := by
      intro d g k h1 h2
      refine List.ext_getElem (by simp [triples, h1, h2]) fun i _ _ => by simp [triples]
    rw [hz _ _ _ (by omega) (by omega), hz _ _ _ hv.2.1 hv.2.2.1] at hpz
    refine hpz.mem_iff.mp ?_
    rw [getD_lt _ _ (by omega), getD_lt _ _ hp]
    have : p < (ch.delays.zip ch.power).length := by simp; omega
    have h1 := List.getElem_mem this
    rwa [List.getElem_zip] at h1
  · dsimp only
    rw [he]
    exact hv.2.2.2.2.2.2.1
  · intro p hp
    dsimp only at hp ⊢
    obtain ⟨l, n, h1, h2, _, _, h3, _⟩ := hgains p (by omega)
    have hsh : ([a.delays.length, a.sinus] : List Nat).getD 1 0 = a.sinus := rfl
    rw [hsh, List.getD_eq_getElem?_getD (l := ch.losGain), h1, List.getD_eq_getElem?_getD (l := g)]
    rw [hg2, List.getElem?_map] at h2
    cases h4 : g[p]? with
    | none => rw [h4] at h2; cases h2
    | some n' =>
      rw [h4] at h2
      rw [← Option.some.inj (Option.some.inj h2)] at h3
      exact h3
  · unfold Sample.energyScale
    dsimp only
    rw [sum_getD, he]
    dsimp only
    rw [(gather_perm (0 : ℝ) (l := a.power) (by rw [hv.2.1]; exact hs.1)).sum_eq]

/-- The example channel has a sample. -/
example : ∃ ch scalars s, construct someArgs 0 [1, 0] = .ok ch ∧
    ch.sample scalars ⟨1, 1, 1, 1, 100, 0⟩ = .ok (some s) ∧ s.energyScale = 2 := by
  obtain ⟨ch, h⟩ := (C76_construct someArgs 0 [1, 0]).1 someArgs_valid
  obtain ⟨s, hs, hr⟩ := C76_sample someArgs 0 [1, 0] ch someArgs_argsort h (by norm_num [someArgs]) 5
    (Or.inr ⟨rfl, rfl⟩) (List.replicate 120 0) (by simp [someArgs]) ⟨1, 1, 1, 1, 100, 0⟩
  refine ⟨ch, _, s, h, hs, ?_⟩
  rw [hr.2.2.2.2.2.2.2.2.2.2.2.2.2]
  norm_num [someArgs]

/-! ## What configuration does not do -/

/-- C76, false of the code: the line of sight angle. Whatever angle is configured, the channel draws the same samples:
line 745 asks for the opposite of what it means. -/
theorem C76_los_angle_fails (a : Args) (draw : ℝ) (sorting : List Nat) (hs : Argsort sorting a.delays) (hv : Valid a)
    (hN : 0 < a.sinus) (hd : a.losDoppler = none) (θ : ℝ) :
    ∃ ch ch', construct { a with losAngle := some θ } draw sorting = .ok ch ∧
      construct { a with losAngle := none } draw sorting = .ok ch' ∧
      ch.losAngle = some θ ∧ (∀ scalars k, ch.sample scalars k = ch'.sample scalars k) ∧
      ∀ k, ∃ scalars s, ch.sample scalars k = .ok (some s) ∧ ∀ p < s.paths, s.losAngle p ≠ θ := by
  obtain ⟨ch, h⟩ := (C76_construct { a with losAngle := some θ } draw sorting).1 hv
  obtain ⟨ch', h'⟩ := (C76_construct { a with losAngle := none } draw sorting).1 hv
  have e := (construct_ok h).2
  have e' := (construct_ok h').2
  refine ⟨ch, ch', h, h', by rw [e]; rfl, fun scalars k => by rw [e, e']; rfl, fun k => ?_⟩
  have hx : ∃ x : ℝ, 2 * Real.pi * normCdf x ≠ θ := by
    by_contra hx
    push Not at hx
    have h1 := hx 0
    have h2 := hx 1
    have h3 := normCdf_strictMono (show (0 : ℝ) < 1 by norm_num)
    have hpi := Real.pi_pos
    nlinarith
  obtain ⟨x, hx⟩ := hx
  obtain ⟨s, hs1, hs2, _, _, _, _, hs3, _⟩ := C76_sample { a with losAngle := some θ } draw sorting ch hs h hN a.doppler (Or.inr ⟨hd, rfl⟩)
    (List.replicate (100 + 2 * a.delays.length + 2 * (a.delays.length * a.sinus)) x) (by simp) k
  refine ⟨_, s, hs1, fun p hp => ?_⟩
  rw [(hs3 p hp).1]
  have hp' : p < a.delays.length := by rw [hs2] at hp; exact hp
  rw [getD_lt _ _ (by simp; omega), List.getElem_replicate]
  exact hx

/-- C76, false of the code: the number of sinusoids. Zero sinusoids are accepted by the constructor and by the setter
("greater or equal to zero"), but leave every channel with a finite rice factor without numbers; and assigning a
number to a channel changes what it reports but no sample. -/
theorem C76_sinusoids_fails (a : Args) (draw : ℝ) (sorting : List Nat) (hs : Argsort sorting a.delays) (hv : Valid a) :
    ((∃ k, some k ∈ a.rice) → ∃ ch, construct { a with sinus := 0 } draw sorting = .ok ch ∧
      ∀ scalars l s, ch.sample scalars l ≠ .ok (some s)) ∧
    ∀ n : Nat, ∃ ch ch', construct a draw sorting = .ok ch ∧ ch.setSinus n = .ok ch' ∧ ch'.sinus = n ∧
      ∀ scalars l, ch'.sample scalars l = ch.sample scalars l := by
  constructor
  · rintro ⟨k, hk⟩
    obtain ⟨ch, h⟩ := (C76_construct { a with sinus := 0 } draw sorting).1 hv
    refine ⟨ch, h, fun scalars l s hsm => ?_⟩
    have hn : ch.nlosGain.mapM id = none := by
      refine mapM_none _ ?_
      rw [(construct_ok h).2]
      dsimp only
      refine List.mem_map.mpr ⟨some k, ?_, rfl⟩
      exact (gather_perm (none : Option ℝ) (l := a.rice) (by rw [hv.2.2.1]; exact hs.1)).mem_iff.mpr hk
    unfold Channel.sample at hsm
    rw [hn] at hsm
    split at hsm
    · split at hsm
      · simp only [spatialResponse] at hsm
        cases hsm
      · cases hsm
    · cases hsm
  · intro n
    obtain ⟨ch, h⟩ := (C76_construct a draw sorting).1 hv
    refine ⟨ch, { ch with sinus := n }, h, ?_, rfl, fun _ _ => rfl⟩
    simp [Channel.setSinus]

example : ∃ k, some k ∈ someArgs.rice := ⟨0, by simp [someArgs]⟩

/-! ## Serialization -/

/-- What `serialize` writes, fading.py 931-941 and channel/channel.py 975-979, without seed and correlation model. h5py
stores `None` as NaN in a floating point attribute (core/factory.py 905-906). -/
structure Record where
  delays : List ℚ
  power : List ℝ
  rice : List (Option ℝ)
  sinus : Nat
  distance : Option ℝ
  doppler : ℝ
  losDoppler : Flt
  gain : ℝ

/-- `serialize`, fading.py 931-941. -/
def Channel.store (ch : Channel) : Record :=
  ⟨ch.delays, ch.power, ch.rice, ch.sinus, ch.distance, ch.doppler, ch.losDoppler.getD .nan, ch.gain⟩

/-- `Deserialize`, fading.py 943-972: keyword arguments of the constructor, without a line of sight angle. -/
noncomputable def Record.restore (r : Record) (draw : ℝ) (sorting : List Nat) : Except PyErr Channel :=
  construct ⟨r.delays, r.power, r.rice, r.distance, r.sinus, none, r.doppler, some r.losDoppler, r.gain⟩ draw sorting

/-- Sorting what is sorted strictly leaves it as it is. -/
theorem argsort_sorted {sorting : List Nat} {l : List ℚ} (h : Argsort sorting l) (hl : l.Pairwise (· < ·)) :
    sorting = List.range l.length := by
  have hp := gather_perm (0 : ℚ) h.1
  have he : gather 0 sorting l = l :=
    hp.eq_of_pairwise (le := (· ≤ ·)) (fun a b _ _ h1 h2 => le_antisymm h1 h2) h.2 (hl.imp fun h => h.le)
  have hlen : sorting.length = l.length := by simpa using h.1.length_eq
  refine List.ext_getElem (by simpa using hlen) fun i h1 h2 => ?_
  rw [List.getElem_range]
  have hs : sorting[i] < l.length := List.mem_range.mp (h.1.mem_iff.mp (List.getElem_mem h1))
  have hi : i < l.length := by omega
  have e1 : l[sorting[i]] = l[i] := by
    have : (gather 0 sorting l)[i]'(by simp [gather]; omega) = l[i] := by simp [he]
    rw [← this]
    simp [gather, List.getD_eq_getElem?_getD, hs]
  have hnd : l.Nodup := hl.imp fun h => h.ne
  exact (List.Nodup.getElem_inj_iff hnd).mp e1

theorem gather_range {α : Type} (dflt : α) (l : List α) : gather dflt (List.range l.length) l = l := by
  refine List.ext_getElem (by simp [gather]) fun i h1 h2 => ?_
  simp [gather, List.getD_eq_getElem?_getD, List.getElem?_eq_getElem h2]

/-- C76: restoring a stored channel. If the delays are distinct and a line of sight Doppler frequency is set, the
restored channel has the same profile, gains, Doppler frequencies and correlation distance and the same samples. Missing:
`C76_restore_fails`. -/
theorem C76_restore_partial (a : Args) (draw draw' : ℝ) (sorting sorting' : List Nat) (ch : Channel)
    (hs : Argsort sorting a.delays) (h : construct a draw sorting = .ok ch) (hd : a.delays.Nodup)
    (hs' : Argsort sorting' ch.store.delays) (f : Flt) (hf : a.losDoppler = some f) :
    ∃ ch', ch.store.restore draw' sorting' = .ok ch' ∧ ch' = { ch with losAngle := some draw' } ∧
      ∀ scalars k, ch'.sample scalars k = ch.sample scalars k := by
  have hprof := C76_profile a draw sorting ch hs h
  obtain ⟨hv, he⟩ := construct_ok h
  have hpd := gather_perm (0 : ℚ) (l := a.delays) hs.1
  have hpg : (gather 0 sorting a.power).Perm a.power := gather_perm _ (by rw [hv.2.1]; exact hs.1)
  have hpk : (gather none sorting a.rice).Perm a.rice := gather_perm _ (by rw [hv.2.2.1]; exact hs.1)
  have hstrict : ch.delays.Pairwise (· < ·) := by
    have hnd : ch.delays.Nodup := by
      rw [he]
      exact hpd.nodup_iff.mpr hd
    exact hprof.2.2.2.2.1.imp₂ (fun _ _ h1 h2 => lt_of_le_of_ne h1 h2) hnd
  have hsort := argsort_sorted hs' hstrict
  have hstore : ch.store.delays = ch.delays := rfl
  have hval : Valid ⟨ch.delays, ch.power, ch.rice, ch.distance, ch.sinus, none, ch.doppler, some (ch.losDoppler.getD .nan),
      ch.gain⟩ := by
    rw [he]
    dsimp only
    refine ⟨?_, ?_, ?_, ?_, ?_, ?_, hv.2.2.2.2.2.2.1, hv.2.2.2.2.2.2.2⟩
    · dsimp only
      rw [hpd.length_eq]; exact hv.1
    · dsimp only
      rw [hpd.length_eq, hpg.length_eq, hv.2.1]
    · dsimp only
      rw [hpd.length_eq, hpk.length_eq, hv.2.2.1]
    · intro d hd'
      exact hv.2.2.2.1 d (hpd.mem_iff.mp hd')
    · intro d hd'
      exact hv.2.2.2.2.1 d (hpg.mem_iff.mp hd')
    · intro k v e hk
      exact hv.2.2.2.2.2.1 k v e (hpk.mem_iff.mp hk)
  obtain ⟨ch', h'⟩ := (C76_construct _ draw' sorting').1 hval
  have e' := (construct_ok h').2
  have key : ch' = { ch with losAngle := some draw' } := by
    rw [e']
    dsimp only
    have h1 : gather 0 sorting' ch.delays = ch.delays := by rw [hsort, hstore, gather_range]
    have h2 : gather 0 sorting' ch.power = ch.power := by
      rw [hsort, hstore, hprof.2.1, ← hprof.2.2.1, gather_range]
    have h3 : gather none sorting' ch.rice = ch.rice := by
      rw [hsort, hstore, hprof.2.1, ← hprof.2.2.2.1, gather_range]
    rw [h1, h2, h3]
    rw [he]
    simp [hf]
  refine ⟨ch', h', key, fun scalars k => ?_⟩
  rw [key]
  rfl

/-- C76, false of the code: a channel whose line of sight Doppler frequency is not set, the default. Restored, it
reports NaN and all its samples are NaN, whereas the original follows the common Doppler frequency. -/
theorem C76_restore_fails (a : Args) (draw draw' : ℝ) (sorting sorting' : List Nat) (ch ch' : Channel)
    (h : construct a draw sorting = .ok ch) (hn : a.losDoppler = none)
    (hr : ch.store.restore draw' sorting' = .ok ch') :
    ch.sightDoppler = .num a.doppler ∧ ch'.sightDoppler = .nan ∧ ∀ scalars k s, ch'.sample scalars k ≠ .ok (some s) := by
  have he := (construct_ok h).2
  have he' := (construct_ok hr).2
  have hnan : ch'.sightDoppler = .nan := by
    rw [he', Channel.sightDoppler]
    rw [he]
    simp [Channel.store, hn]
  refine ⟨by rw [he, Channel.sightDoppler]; simp [hn], hnan, fun scalars k s hsm => ?_⟩
  unfold Channel.sample at hsm
  rw [hnan] at hsm
  split at hsm
  · split at hsm
    · simp only [spatialResponse] at hsm
      split at hsm
      · rename_i h1; cases h1
      · cases hsm
    · cases hsm
  · cases hsm

/-- How Python binds a call: `params` without defaults, `pos` positional arguments, keywords `kws`. Positional arguments
take the first parameters; a keyword that is unknown or already taken, and a parameter left over, are `TypeError`s. -/
def bindCall (params : List String) (pos : Nat) (kws : List String) : Except PyErr Unit :=
  if params.length < pos then .error .type
  else if kws.any (fun k => k ∉ params.drop pos) then .error .type
  else if (params.drop pos).any (fun p => p ∉ kws) then .error .type
  else .ok ()

/-- The parameters of `MultipathFadingRealization.__init__`, fading.py 431-448. -/
def realizationParams : List String :=
  ["random_realization", "antenna_correlation_variable", "los_angles_variable", "nlos_angles_variable",
    "los_phases_variable", "nlos_phases_variable", "power_profile", "delay_profile", "los_gains", "nlos_gains",
    "los_doppler", "nlos_doppler", "antenna_correlation", "sample_hooks", "gain"]

/-- The keywords of `Channel._DeserializeParameters`, channel/channel.py 981-986. -/
def channelKeywords : List String := ["gain", "seed"]

/-- The keywords of `ChannelRealization._DeserializeParameters`, channel/channel.py 725-728. -/
def realizationKeywords : List String := ["gain"]

/-- The call of `MultipathFadingRealization.Deserialize`, fading.py 565-582, after everything has been read. -/
def restoreRealization : Except PyErr Unit := bindCall realizationParams 14 channelKeywords

/-- C76, false of the code: stored realizations. No realization of a multipath fading channel can be read back,
`Deserialize` hands the parameters of a channel to the realization; with those of a realization it could. -/
theorem C76_realization_fails :
    restoreRealization = .error .type ∧ bindCall realizationParams 14 realizationKeywords = .ok () := by
  decide +kernel

end Verif.Fading
