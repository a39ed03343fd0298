import Verif.Modem.Grid

/-!
# Pilot sections and pilot sequences

`PilotSection.generate` with its cache and the settings that determine the pilot
(`hermespy/modem/waveforms/orthogonal/waveform.py`), and `ConfigurablePilotWaveform.pilot_symbols`
(`hermespy/modem/waveform.py`).
-/

namespace Verif.Modem

variable {α : Type}

/-- A pilot section and the settings of the waveform it belongs to. The settings of the waveform other than
the number of subcarriers (modulation order, DC suppression of OFDM, …) are a value of type `κ`. `cache` is the
cached pilot with the number of subcarriers and oversampling factor it was generated for.
`hermespy/modem/waveforms/orthogonal/waveform.py` 741-764. -/
structure PilotState (κ α : Type) where
  settings : κ
  numSubcarriers : Nat
  elements : Option (Nat × List α)
  cache : Option (List (List α) × Nat × Nat)

/-- Symbols assigned to `pilot_elements`: shape and entries. -/
structure PilotElements (α : Type) where
  numStreams : Nat
  numSymbols : Nat
  flat : List α

/-- Events: assignments by the user, and the generation of the pilot (by `modulate` or `pilot_signal`). -/
inductive PilotOp (κ α : Type) where
  | setElements (value : Option (PilotElements α))
  | setSubcarriers (n : Int)
  | setSettings (value : κ)
  | generate (os : Nat)

/-- How the waveform turns settings into pilots: the pseudo-random default symbols (834-842) and
`_forward_transformation`. -/
structure PilotMaps (κ α : Type) where
  default : κ → Nat → List α
  forward : κ → Nat → Nat → List (List α) → List (List α)

/-- The pilot of the current configuration: what `generate` computes when nothing is cached.
`hermespy/modem/waveforms/orthogonal/waveform.py` 883-884. -/
def freshPilot (maps : PilotMaps κ α) (s : PilotState κ α) (os : Nat) : List (List α) :=
  maps.forward s.settings s.numSubcarriers os
    [pilotSequence (maps.default s.settings) s.elements s.numSubcarriers]

/-- The `pilot_elements` setter. `hermespy/modem/waveforms/orthogonal/waveform.py` 805-820. Setting `None` returns before
the cache is reset. -/
def PilotState.setElements (s : PilotState κ α) (value : Option (PilotElements α)) :
    Except PyErr (PilotState κ α) :=
  match value with
  | none => .ok { s with elements := none }
  | some v =>
    if v.numStreams ≠ 1 then .error .value
    else if v.numSymbols < 1 then .error .value
    else .ok { s with cache := none, elements := some (v.numSymbols, v.flat) }

/-- The `num_subcarriers` setter. `hermespy/modem/waveforms/orthogonal/waveform.py` 1110-1115. -/
def PilotState.setSubcarriers (s : PilotState κ α) (n : Int) : Except PyErr (PilotState κ α) :=
  if n < 1 then .error .value else .ok { s with numSubcarriers := n.toNat }

/-- `PilotSection.generate`. `hermespy/modem/waveforms/orthogonal/waveform.py` 869-891. -/
def PilotState.generate (maps : PilotMaps κ α) (s : PilotState κ α) (os : Nat) :
    List (List α) × PilotState κ α :=
  let fresh := freshPilot maps s os
  match s.cache with
  | some (pilot, n, o) =>
    if n = s.numSubcarriers ∧ o = os then (pilot, s)
    else (fresh, { s with cache := some (fresh, s.numSubcarriers, os) })
  | none => (fresh, { s with cache := some (fresh, s.numSubcarriers, os) })

/-- One event: the state afterwards (unchanged if a setter raises) and the generated pilot, if any. -/
def PilotState.step (maps : PilotMaps κ α) (s : PilotState κ α) :
    PilotOp κ α → Option (List (List α)) × PilotState κ α
  | .setElements v =>
    match s.setElements v with
    | .ok s' => (none, s')
    | .error _ => (none, s)
  | .setSubcarriers n =>
    match s.setSubcarriers n with
    | .ok s' => (none, s')
    | .error _ => (none, s)
  | .setSettings v => (none, { s with settings := v })
  | .generate os => let r := s.generate maps os; (some r.1, r.2)

/-- A whole history. -/
def PilotState.run (maps : PilotMaps κ α) (s : PilotState κ α) : List (PilotOp κ α) → PilotState κ α
  | [] => s
  | op :: ops => PilotState.run maps (s.step maps op).2 ops

/-- Events after which the cache stays valid or is recognised as outdated. -/
def PilotOp.Safe : PilotOp κ α → Prop
  | .setElements none => False
  | .setSettings _ => False
  | _ => True

/-- The cached pilot is the pilot of the current configuration, for the subcarriers and oversampling factor
it was generated for. -/
def CacheValid (maps : PilotMaps κ α) (s : PilotState κ α) : Prop :=
  ∀ pilot n o, s.cache = some (pilot, n, o) →
    pilot = freshPilot maps { s with numSubcarriers := n } o

theorem generate_fresh (maps : PilotMaps κ α) (s : PilotState κ α) (h : CacheValid maps s) (os : Nat) :
    (s.generate maps os).1 = freshPilot maps s os ∧ CacheValid maps (s.generate maps os).2 := by
  unfold PilotState.generate
  cases hc : s.cache with
  | none =>
    refine ⟨rfl, ?_⟩
    intro pilot n o h'
    simp only [Option.some.injEq, Prod.mk.injEq] at h'
    obtain ⟨rfl, rfl, rfl⟩ := h'
    rfl
  | some c =>
    obtain ⟨pilot, n, o⟩ := c
    simp only
    split
    · next hk =>
      obtain ⟨rfl, rfl⟩ := hk
      exact ⟨h _ _ _ hc, h⟩
    · refine ⟨rfl, ?_⟩
      intro pilot n o h'
      simp only [Option.some.injEq, Prod.mk.injEq] at h'
      obtain ⟨rfl, rfl, rfl⟩ := h'
      rfl

theorem step_valid (maps : PilotMaps κ α) (s : PilotState κ α) (h : CacheValid maps s)
    (op : PilotOp κ α) (hop : op.Safe) : CacheValid maps (s.step maps op).2 := by
  cases op with
  | setElements v =>
    cases v with
    | none => exact absurd hop id
    | some v =>
      simp only [PilotState.step, PilotState.setElements]
      split_ifs
      · exact h
      · exact h
      · intro pilot n o h'
        cases h'
  | setSubcarriers n =>
    simp only [PilotState.step, PilotState.setSubcarriers]
    split_ifs
    · exact h
    · exact h
  | setSettings v => exact absurd hop id
  | generate os => exact (generate_fresh maps s h os).2

/-- **C59 (partial).** In every history of a waveform whose modulation order (and other settings of its
transformation) stays and whose pilot elements are never reset to `None`, every generated pilot is the pilot
of the configuration at that time, however elements, subcarriers and oversampling factors are changed in
between. Missing: the excluded changes, for which the statement is false (`C59_stale_fails`). -/
theorem C59_pilot_partial (maps : PilotMaps κ α) (settings : κ) (n0 : Nat)
    (elements : Option (Nat × List α)) (ops : List (PilotOp κ α)) (hops : ∀ op ∈ ops, op.Safe) (os : Nat) :
    let s := PilotState.run maps ⟨settings, n0, elements, none⟩ ops
    (s.generate maps os).1 = maps.forward s.settings s.numSubcarriers os
      [pilotSequence (maps.default s.settings) s.elements s.numSubcarriers] := by
  have key : ∀ (ops : List (PilotOp κ α)) (s : PilotState κ α), CacheValid maps s →
      (∀ op ∈ ops, op.Safe) → CacheValid maps (PilotState.run maps s ops) := by
    intro ops
    induction ops with
    | nil => intro s h _; exact h
    | cons op ops ih =>
      intro s h hs
      exact ih _ (step_valid maps s h op (hs op (by simp))) fun o ho => hs o (by simp [ho])
  exact (generate_fresh maps _ (key ops _ (by intro p n o h; cases h) hops) os).1

/-- The current configuration after a history is what was assigned last. -/
theorem C59_configuration (maps : PilotMaps κ α) (s : PilotState κ α) (v : PilotElements α) (n : Int) :
    (v.numStreams = 1 → 1 ≤ v.numSymbols →
      ∃ s', s.setElements (some v) = .ok s' ∧ s'.elements = some (v.numSymbols, v.flat) ∧
        s'.numSubcarriers = s.numSubcarriers ∧ s'.settings = s.settings ∧
        ∀ os, (s'.generate maps os).1 = freshPilot maps s' os) ∧
    ((v.numStreams ≠ 1 ∨ v.numSymbols = 0) → s.setElements (some v) = .error .value) ∧
    (1 ≤ n → ∃ s', s.setSubcarriers n = .ok s' ∧ (s'.numSubcarriers : Int) = n ∧
      s'.elements = s.elements ∧ s'.settings = s.settings) ∧
    (n < 1 → s.setSubcarriers n = .error .value) := by
  refine ⟨?_, ?_, ?_, ?_⟩
  · intro h1 h2
    refine ⟨{ s with cache := none, elements := some (v.numSymbols, v.flat) }, ?_, rfl, rfl, rfl, ?_⟩
    · simp only [PilotState.setElements]
      rw [if_neg (by omega), if_neg (by omega)]
    · intro os; rfl
  · intro h
    simp only [PilotState.setElements]
    by_cases h1 : v.numStreams = 1
    · rw [if_neg (by omega), if_pos (by omega)]
    · rw [if_pos h1]
  · intro h
    refine ⟨{ s with numSubcarriers := n.toNat }, ?_, by simp only; omega, rfl, rfl⟩
    simp only [PilotState.setSubcarriers]
    rw [if_neg (by omega)]
  · intro h
    simp only [PilotState.setSubcarriers]
    rw [if_pos h]

/-- C59 is false in general. Once a pilot has been generated, resetting the elements to `None` or changing
the modulation order (or any other setting of the transformation, such as DC suppression) has no effect on
the pilots generated for the same oversampling factor: they stay those of the old configuration, whatever the
maps, and hence differ from the current ones whenever the change makes any difference. -/
theorem C59_stale_fails (maps : PilotMaps κ α) (s : PilotState κ α) (hs : CacheValid maps s) (os : Nat)
    (settings : κ) :
    let s1 := (s.generate maps os).2
    (∃ s2, s1.setElements none = .ok s2 ∧ s2.elements = none ∧
      (s2.generate maps os).1 = freshPilot maps s os) ∧
    (({ s1 with settings := settings } : PilotState κ α).generate maps os).1 = freshPilot maps s os := by
  have hc : (s.generate maps os).2.cache = some (freshPilot maps s os, s.numSubcarriers, os) ∧
      (s.generate maps os).2.numSubcarriers = s.numSubcarriers := by
    have hf := generate_fresh maps s hs os
    unfold PilotState.generate at hf ⊢
    cases hc : s.cache with
    | none => exact ⟨rfl, rfl⟩
    | some c =>
      obtain ⟨pilot, n, o⟩ := c
      rw [hc] at hf
      simp only at hf ⊢
      split
      · next hk =>
        rw [if_pos hk] at hf
        obtain ⟨rfl, rfl⟩ := hk
        exact ⟨by rw [hc, ← hf.1], rfl⟩
      · exact ⟨rfl, rfl⟩
  obtain ⟨h1, h2⟩ := hc
  refine ⟨⟨_, rfl, rfl, ?_⟩, ?_⟩
  · unfold PilotState.generate at h1 h2 ⊢
    simp only [h1, h2, and_self, if_true]
  · unfold PilotState.generate at h1 h2 ⊢
    simp only [h1, h2, and_self, if_true]

/-- Two subcarriers, pilots `2, 3`: after a reset to `None` the default pilots `7, 7` are configured, but the
old ones are generated. -/
example : ∃ s : PilotState Unit ℚ,
    let maps : PilotMaps Unit ℚ := ⟨fun _ n => List.replicate n 7, fun _ _ _ g => g⟩
    s.elements = none ∧ freshPilot maps s 1 = [[7, 7]] ∧ (s.generate maps 1).1 = [[2, 3]] := by
  refine ⟨⟨(), 2, none, some ([[2, 3]], 2, 1)⟩, rfl, ?_, ?_⟩
  · decide +kernel
  · decide +kernel

/-- `ConfigurablePilotWaveform.pilot_symbols`. `hermespy/modem/waveform.py` 797-820. -/
def pilotSymbols (sequence : List α) (repeat_ : Bool) (n : Nat) : Except PyErr (List α) :=
  if sequence.length = 0 then .error .zeroDivision
  else
    let reps := (n + sequence.length - 1) / sequence.length
    if reps > 1 then
      if repeat_ = false then .error .runtime
      else .ok ((Np.tile reps sequence).take n)
    else .ok (sequence.take n)

theorem tile_get (m : Nat) (xs : List α) (i : Nat) (hi : i < m * xs.length) :
    (Np.tile m xs)[i]? = xs[i % xs.length]? := by
  unfold Np.tile
  induction m generalizing i with
  | zero => omega
  | succ m ih =>
    rw [List.replicate_succ, List.flatten_cons]
    by_cases h : i < xs.length
    · rw [List.getElem?_append_left h, Nat.mod_eq_of_lt h]
    · rw [List.getElem?_append_right (by omega), ih _ (by rw [Nat.succ_mul] at hi; omega),
        ← Nat.mod_eq_sub_mod (by omega)]

/-- C59, reference symbols: asking for `n` pilot symbols returns exactly `n`, the configured sequence
repeated cyclically; if repetition is forbidden, precisely the requests longer than the sequence fail. -/
theorem C59_pilot_symbols (sequence : List α) (h0 : sequence ≠ []) (rep : Bool) (n : Nat) :
    (rep = false ∧ sequence.length < n → pilotSymbols sequence rep n = .error .runtime) ∧
    (rep = true ∨ n ≤ sequence.length → ∃ out, pilotSymbols sequence rep n = .ok out ∧
      out.length = n ∧ ∀ i < n, out[i]? = sequence[i % sequence.length]?) := by
  have hl : 0 < sequence.length := List.length_pos_iff.mpr h0
  have hreps : (n + sequence.length - 1) / sequence.length > 1 ↔ sequence.length < n := by
    rw [gt_iff_lt, Nat.lt_div_iff_mul_lt hl]
    omega
  have hcover : n ≤ (n + sequence.length - 1) / sequence.length * sequence.length := by
    have h1 := Nat.div_add_mod (n + sequence.length - 1) sequence.length
    have h2 := Nat.mod_lt (n + sequence.length - 1) hl
    rw [Nat.mul_comm] at h1
    omega
  unfold pilotSymbols
  rw [if_neg (by omega)]
  constructor
  · rintro ⟨rfl, h⟩
    simp only
    rw [if_pos (hreps.mpr h)]
    simp
  · intro h
    simp only
    by_cases hn : sequence.length < n
    · have hr : rep = true := by
        rcases h with h | h
        · exact h
        · omega
      rw [if_pos (hreps.mpr hn), if_neg (by simp [hr])]
      refine ⟨_, rfl, ?_, ?_⟩
      · rw [List.length_take]
        have : (Np.tile ((n + sequence.length - 1) / sequence.length) sequence).length =
            (n + sequence.length - 1) / sequence.length * sequence.length := by
          simp [Np.tile]
        omega
      · intro i hi
        rw [List.getElem?_take_of_lt hi, tile_get _ _ _ (by omega)]
    · rw [if_neg (fun h => hn (hreps.mp h))]
      refine ⟨_, rfl, by simp; omega, ?_⟩
      intro i hi
      rw [List.getElem?_take_of_lt hi, Nat.mod_eq_of_lt (by omega)]

example : pilotSymbols [1, 2, 3] true 5 = .ok [1, 2, 3, 1, 2] := by decide

end Verif.Modem
