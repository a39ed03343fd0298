import Verif.Core.Device
import Mathlib.Analysis.Real.Sqrt

/-!
# C87: what simulated devices transmit

`hermespy/simulation/simulated_device.py` 483-726 and 1562-1749.  Signals are dense, of equal carrier frequency, and
objects in a store as in `Verif.Core.Device`.  The front-end, that is RF chain, isolation, coupling and antennas, is a
function from the samples of the DSP layer to the emerging and leaking samples: the RF chain creates its output without
delay (`rf/chain.py` 563), and what follows keeps it.
-/

namespace Verif.SimDev

open Verif.Signal hiding sumAt
open Verif.Core (Ports superimposeRef superimposeAll emptySignal sumAt Plain superimposeRef_plain superimposeAll_plain
  lt_of_getElem?_some)

/-- What `generate_output` reads of a device. -/
structure TxDevice where
  rate : ℚ
  dspPorts : ℕ
  antennas : ℕ
  power : ℝ
  separation : Bool
  encode : Dense → Except PyErr Dense
  front : Arr → Except PyErr (Arr × Arr)

/-- `_simulate_output`, lines 1562-1589. -/
def TxDevice.simulate (d : TxDevice) (s : Dense) : Except PyErr (Dense × Dense) :=
  match d.front s.a with
  | .error e => .error e
  | .ok (e, l) => .ok (⟨e, d.rate, 0⟩, ⟨l, d.rate, 0⟩)

/-- Loop of `SimulatedDeviceOutput.__init__`, lines 527-543. -/
def mixLoop (rate : ℚ) (P : ℕ) (h : List Dense) (t : ℕ) : List ℕ → Except PyErr (List Dense × ℕ)
  | [] => .ok (h, t)
  | v :: vs =>
    match h[v]? with
    | none => .error .attribute
    | some s =>
      if s.rate ≠ rate then .error .value
      else if s.a.M ≠ P then .error .value
      else
        match superimposeRef h t v none with
        | .error e => .error e
        | .ok (h', t') => mixLoop rate P h' t' vs

/-- `SimulatedDeviceOutput.__init__`, lines 513-551: store and reference of the mixed signal. -/
def mix (rate : ℚ) (P : ℕ) (trig : ℚ) (h : List Dense) (refs : List ℕ) : Except PyErr (List Dense × ℕ) :=
  mixLoop rate P (h ++ [⟨Arr.zeros P 0, rate, trig⟩]) h.length refs

/-- `SimulatedDeviceOutput`: the store, references of the emerging signals, the leaking signals and the reference of the
mixed signal. -/
structure Output where
  store : List Dense
  emerging : List ℕ
  leaking : List Dense
  mixed : ℕ

/-- Emerging signals after trigger and power, lines 1685-1692. -/
noncomputable def emit (power : ℝ) (trig : ℚ) (s : Dense) : Dense :=
  ⟨⟨s.a.M, s.a.N, fun m n => s.a.x m n * (√power : ℝ)⟩, s.rate, s.delay + trig⟩

/-- Operator separation, lines 1646-1650: a missing transmission has no signal. -/
def TxDevice.separate (d : TxDevice) (h : List Dense) : List (Option ℕ) → Except PyErr (List (Dense × Dense))
  | [] => .ok []
  | none :: _ => .error .attribute
  | some v :: tx =>
    match h[v]? with
    | none => .error .attribute
    | some s =>
      match d.simulate s with
      | .error e => .error e
      | .ok p =>
        match d.separate h tx with
        | .error e => .error e
        | .ok ps => .ok (p :: ps)

/-- Lines 1646-1678: store after the superposition, and the pairs of emerging and leaking signals. -/
def TxDevice.propagate (d : TxDevice) (h : List Dense) (tx : List (Option ℕ)) (ports : List Ports) :
    Except PyErr (List Dense × List (Dense × Dense)) :=
  if d.separation then
    match d.separate h tx with
    | .error e => .error e
    | .ok ps => .ok (h, ps)
  else
    match superimposeAll (h ++ [emptySignal d.rate d.dspPorts]) h.length (tx.zip ports) with
    | .error e => .error e
    | .ok (h', t) =>
      match h'[t]? with
      | none => .error .attribute
      | some s =>
        match (if 0 < d.dspPorts then d.encode s else .ok s) with
        | .error e => .error e
        | .ok s =>
          match d.simulate s with
          | .error e => .error e
          | .ok p => .ok (h', [p])

/-- `generate_output`, lines 1627-1709: `tx` are the signals of the transmissions, `ports` those selected by the
operators and `trig` the delay of the trigger. -/
noncomputable def TxDevice.generate (d : TxDevice) (h : List Dense) (tx : List (Option ℕ)) (ports : List Ports) (trig : ℚ) :
    Except PyErr Output :=
  if tx.length ≠ ports.length then .error .value
  else
    match d.propagate h tx ports with
    | .error e => .error e
    | .ok (h', ps) =>
      let store := h' ++ ps.map fun p => emit d.power trig p.1
      let refs := (List.range ps.length).map (h'.length + ·)
      match mix d.rate d.antennas trig store refs with
      | .error e => .error e
      | .ok (store, t) => .ok ⟨store, refs, ps.map fun p => { p.2 with delay := p.2.delay + trig }, t⟩

/-- `SimulatedDeviceTransmission.From_SimulatedDeviceOutput` and the constructor it calls, lines 688-714: the emerging
signals are superimposed once more.  Also `SimulatedDeviceOutput.Deserialize`, lines 634-642, of an output whose objects
were restored. -/
def rebuild (rate : ℚ) (P : ℕ) (trig : ℚ) (o : Output) : Except PyErr Output :=
  match mix rate P trig o.store o.emerging with
  | .error e => .error e
  | .ok (store, t) => .ok { o with store := store, mixed := t }

/-- `transmit`, lines 1742-1749, of the given transmissions. -/
noncomputable def TxDevice.transmit (d : TxDevice) (h : List Dense) (tx : List (Option ℕ)) (ports : List Ports) (trig : ℚ) :
    Except PyErr Output :=
  match d.generate h tx ports trig with
  | .error e => .error e
  | .ok o => rebuild d.rate d.antennas trig o

/-! ### The superposition of the emerging signals -/

/-- Signals a device of rate `rate` with `P` antennas may emit at time `δ`. -/
def Emitted (rate : ℚ) (P : ℕ) (δ : ℚ) (s : Dense) : Prop := Plain P δ s ∧ s.rate = rate

theorem superimposeRef_rate (h : List Dense) (t v : ℕ) (s : Dense) (hs : h[t]? = some s) (a : Dense)
    (ha : h[v]? = some a) (hne : ¬ s.a.M * s.a.N < 1) (h' : List Dense) (t' : ℕ)
    (e : superimposeRef h t v none = .ok (h', t')) (s' : Dense) (hs' : h'[t']? = some s') : s'.rate = s.rate := by
  unfold superimposeRef at e
  rw [hs, ha] at e
  dsimp only at e
  rw [if_neg hne] at e
  have ht := lt_of_getElem?_some hs
  split at e
  · have e' : (s.a.addTo 0 s.a.M 0 (s.aligned a).N (s.aligned a) >>= fun r =>
      Except.ok (h.set t { s with a := r }, t)) = .ok (h', t') := e
    generalize s.a.addTo 0 s.a.M 0 (s.aligned a).N (s.aligned a) = x at e'
    cases x with
    | error _ => cases e'
    | ok r =>
      obtain ⟨rfl, rfl⟩ := Prod.mk.inj (Except.ok.inj e')
      rw [List.getElem?_set_self ht] at hs'
      cases hs'; rfl
  · generalize (Arr.zeros (max s.a.M (s.aligned a).M) (max s.a.N (s.aligned a).N)).addTo 0 s.a.M 0 s.a.N s.a = big at e
    cases big with
    | error _ => cases e
    | ok b =>
      have e' : (b.addTo 0 b.M 0 (s.aligned a).N (s.aligned a) >>= fun r =>
        Except.ok (h ++ [{ s with a := r }], h.length)) = .ok (h', t') := e
      generalize b.addTo 0 b.M 0 (s.aligned a).N (s.aligned a) = x at e'
      cases x with
      | error _ => cases e'
      | ok r =>
        obtain ⟨rfl, rfl⟩ := Prod.mk.inj (Except.ok.inj e')
        rw [List.getElem?_append_right (le_refl _)] at hs'
        simp at hs'
        subst hs'; rfl

theorem mixLoop_plain (rate : ℚ) (P : ℕ) (δ : ℚ) (hP : 0 < P) (vs : List ℕ) (h : List Dense) (t : ℕ) (s : Dense)
    (hs : h[t]? = some s) (ps : Emitted rate P δ s) (ht : t ∉ vs)
    (hv : ∀ v ∈ vs, ∃ a, h[v]? = some a ∧ Emitted rate P δ a) :
    ∃ h' t' s', mixLoop rate P h t vs = .ok (h', t') ∧ h'[t']? = some s' ∧ Emitted rate P δ s' ∧
      (∀ m n, s'.a.get m n = s.a.get m n + sumAt h vs m n) ∧ (∀ u, u ≠ t → u < h.length → h'[u]? = h[u]?) := by
  induction vs generalizing h t s with
  | nil => exact ⟨h, t, s, rfl, hs, ps, by simp [sumAt], fun _ _ _ => rfl⟩
  | cons v vs ih =>
    obtain ⟨a, ha, pa⟩ := hv v List.mem_cons_self
    obtain ⟨h1, t1, s1, e1, g1, p1, n1, x1, u1, l1, c1⟩ := superimposeRef_plain h t v P δ hP s a hs ha ps.1 pa.1
    have hne : ¬ s.a.M * s.a.N < 1 := by
      have : 0 < s.a.M * s.a.N := Nat.mul_pos (by rw [ps.1.1]; exact hP) ps.1.2.1
      omega
    have r1 := (superimposeRef_rate h t v s hs a ha hne h1 t1 e1 s1 g1).trans ps.2
    have hlt : ∀ u ∈ vs, u < h.length := fun u hu => by
      obtain ⟨b, hb, _⟩ := hv u (List.mem_cons_of_mem _ hu)
      exact lt_of_getElem?_some hb
    have htn : ∀ u ∈ vs, u ≠ t := fun u hu e => ht (by rw [← e]; exact List.mem_cons_of_mem _ hu)
    have keep : ∀ u ∈ vs, h1[u]? = h[u]? := fun u hu => u1 u (htn u hu) (hlt u hu)
    have ht1 : t1 ∉ vs := by
      intro hc
      rcases c1 with c1 | ⟨c1, _⟩
      · exact htn _ hc c1
      · have := hlt _ hc; omega
    obtain ⟨h2, t2, s2, e2, g2, p2, x2, u2⟩ := ih h1 t1 s1 g1 ⟨p1, r1⟩ ht1 (fun u hu => by
      obtain ⟨b, hb, pb⟩ := hv u (List.mem_cons_of_mem _ hu)
      exact ⟨b, by rw [keep u hu]; exact hb, pb⟩)
    refine ⟨h2, t2, s2, ?_, g2, p2, ?_, ?_⟩
    · simp only [mixLoop, ha, pa.2, pa.1.1, ne_eq, not_true_eq_false, if_false, e1, e2]
    · intro m n
      rw [x2, x1]
      have e3 : sumAt h1 vs m n = sumAt h vs m n := by
        unfold sumAt
        congr 1
        exact List.map_congr_left (fun u hu => by rw [keep u hu])
      have e4 : sumAt h (v :: vs) m n = a.a.get m n + sumAt h vs m n := by
        unfold sumAt; rw [List.map_cons, List.sum_cons, ha]
      rw [e3, e4, add_assoc]
    · intro u hu hl
      by_cases hut : u = t1
      · rcases c1 with c1 | ⟨c1, _⟩
        · exact absurd (hut.trans c1) hu
        · omega
      · rw [u2 u hut (by omega), u1 u hu hl]

theorem superimposeRef_empty (h : List Dense) (t v : ℕ) (s a : Dense) (hs : h[t]? = some s) (ha : h[v]? = some a)
    (he : s.a.M * s.a.N < 1) : superimposeRef h t v none = .ok (h, v) := by
  unfold superimposeRef
  rw [hs, ha]
  exact if_pos he

theorem mix_plain (rate : ℚ) (P : ℕ) (δ trig : ℚ) (hP : 0 < P) (v : ℕ) (vs : List ℕ) (h : List Dense) (hd : v ∉ vs)
    (hv : ∀ u ∈ v :: vs, ∃ a, h[u]? = some a ∧ Emitted rate P δ a) :
    ∃ h' t' s', mix rate P trig h (v :: vs) = .ok (h', t') ∧ h'[t']? = some s' ∧ Emitted rate P δ s' ∧
      (∀ m n, s'.a.get m n = sumAt h (v :: vs) m n) ∧ (∀ u, u ≠ v → u < h.length → h'[u]? = h[u]?) := by
  have hlt : ∀ u ∈ v :: vs, u < h.length := fun u hu => by
    obtain ⟨b, hb, _⟩ := hv u hu
    exact lt_of_getElem?_some hb
  have keep : ∀ (u : ℕ), u < h.length → (h ++ [(⟨Arr.zeros P 0, rate, trig⟩ : Dense)])[u]? = h[u]? :=
    fun u hu => List.getElem?_append_left hu
  obtain ⟨a, ha, pa⟩ := hv v List.mem_cons_self
  obtain ⟨h', t, s, e, g, p, x, k⟩ := mixLoop_plain rate P δ hP vs (h ++ [⟨Arr.zeros P 0, rate, trig⟩]) v a
    (by rw [keep v (hlt v List.mem_cons_self)]; exact ha) pa hd (fun u hu => by
      obtain ⟨b, hb, pb⟩ := hv u (List.mem_cons_of_mem _ hu)
      exact ⟨b, by rw [keep u (hlt u (List.mem_cons_of_mem _ hu))]; exact hb, pb⟩)
  refine ⟨h', t, s, ?_, g, p, ?_, fun u hu hul => ?_⟩
  · have hk : (h ++ [(⟨Arr.zeros P 0, rate, trig⟩ : Dense)])[v]? = some a := by
      rw [keep v (hlt v List.mem_cons_self)]; exact ha
    have := superimposeRef_empty (h ++ [(⟨Arr.zeros P 0, rate, trig⟩ : Dense)]) h.length v ⟨Arr.zeros P 0, rate, trig⟩ a (by simp) hk (by simp [Arr.zeros])
    simp only [mix, mixLoop, hk, pa.2, pa.1.1, ne_eq, not_true_eq_false, if_false, this, e]
  · intro m n
    rw [x]
    have : sumAt (h ++ [(⟨Arr.zeros P 0, rate, trig⟩ : Dense)]) vs m n = sumAt h vs m n := by
      unfold sumAt
      congr 1
      exact List.map_congr_left (fun u hu => by rw [keep u (hlt u (List.mem_cons_of_mem _ hu))])
    rw [this]
    unfold sumAt
    rw [List.map_cons, List.sum_cons, ha]
  · rw [k u hu (by simp; omega), keep u hul]

theorem mix_single (rate : ℚ) (P : ℕ) (trig : ℚ) (v : ℕ) (h : List Dense) (a : Dense) (ha : h[v]? = some a)
    (hr : a.rate = rate) (hM : a.a.M = P) :
    mix rate P trig h [v] = .ok (h ++ [⟨Arr.zeros P 0, rate, trig⟩], v) := by
  have hk : (h ++ [(⟨Arr.zeros P 0, rate, trig⟩ : Dense)])[v]? = some a := by
    rw [List.getElem?_append_left (lt_of_getElem?_some ha), ha]
  have := superimposeRef_empty (h ++ [(⟨Arr.zeros P 0, rate, trig⟩ : Dense)]) h.length v ⟨Arr.zeros P 0, rate, trig⟩ a (by simp) hk (by simp [Arr.zeros])
  simp only [mix, mixLoop, hk, hr, hM, ne_eq, not_true_eq_false, if_false, this]

theorem separate_ok (d : TxDevice) (h : List Dense) (sigs : List Dense) (vs : List ℕ) (outs : List (Arr × Arr))
    (hv : List.Forall₂ (fun v s => h[v]? = some s) vs sigs) (hf : List.Forall₂ (fun s o => d.front s.a = .ok o) sigs outs) :
    d.separate h (vs.map some) = .ok (outs.map fun o => (⟨o.1, d.rate, 0⟩, ⟨o.2, d.rate, 0⟩)) := by
  induction hv generalizing outs with
  | nil => cases hf; rfl
  | @cons v s vs sigs hvs _ ih =>
    cases hf with
    | @cons _ o _ outs ho hf =>
      simp only [List.map_cons, TxDevice.separate, hvs, TxDevice.simulate, ho, ih outs hf]

/-- Samples emitted by a front-end of the given outputs. -/
noncomputable def emittedSum (power : ℝ) (outs : List (Arr × Arr)) (m n : ℕ) : ℂ :=
  (outs.map fun o => ((√power : ℝ) : ℂ) * o.1.get m n).sum

theorem emit_get (power : ℝ) (trig : ℚ) (a : Arr) (rate : ℚ) (m n : ℕ) :
    (emit power trig ⟨a, rate, 0⟩).a.get m n = ((√power : ℝ) : ℂ) * a.get m n := by
  simp only [emit, Arr.get]
  by_cases h : m < a.M ∧ n < a.N
  · rw [if_pos h]
    exact (if_pos h).trans (mul_comm _ _)
  · rw [if_neg h, mul_zero]
    exact if_neg h

/-- References of the emerging signals. -/
theorem refs_get (h' es : List Dense) (i : ℕ) : (h' ++ es)[h'.length + i]? = es[i]? := by
  rw [List.getElem?_append_right (by omega)]
  congr 1
  omega

theorem sumAt_refs (h' es : List Dense) (m n : ℕ) :
    sumAt (h' ++ es) ((List.range es.length).map (h'.length + ·)) m n = (es.map fun s => s.a.get m n).sum := by
  unfold sumAt
  rw [List.map_map]
  congr 1
  apply List.ext_getElem
  · simp
  · intro i h1 h2
    have hi : i < es.length := by simpa using h2
    simp only [List.getElem_map, List.getElem_range, Function.comp]
    rw [refs_get _ _ i, List.getElem?_eq_getElem hi]

/-- C87: with separated operators, if the front-end emits for every transmission a signal with a stream for each antenna,
the mixed output carries at every antenna and time the sum of all emitted signals, each of the power of the device, and
starts at the trigger; there is one emerging and one leaking signal for each transmission, the leaking ones starting at
the trigger as well.  Missing for the full claim: the output of `transmit` and the first emerging signal, see
`C87_rebuilt_fails`, the power of the leakage, see `C87_leakage_power_fails`, selected ports, see `C87_ports_fails`, and
missing transmissions, see `C87_missing_fails`. -/
theorem C87_separated_partial (d : TxDevice) (hsep : d.separation = true) (h : List Dense) (vs : List ℕ)
    (sigs : List Dense) (outs : List (Arr × Arr)) (ports : List Ports) (trig : ℚ) (hne : outs ≠ [])
    (hp : ports.length = vs.length) (hv : List.Forall₂ (fun v s => h[v]? = some s) vs sigs)
    (hf : List.Forall₂ (fun s o => d.front s.a = .ok o) sigs outs) (hA : 0 < d.antennas)
    (ho : ∀ o ∈ outs, o.1.M = d.antennas ∧ 0 < o.1.N) :
    ∃ o s, d.generate h (vs.map some) ports trig = .ok o ∧ o.store[o.mixed]? = some s ∧ s.a.M = d.antennas ∧
      s.rate = d.rate ∧ s.delay = trig ∧ (∀ m n, s.a.get m n = emittedSum d.power outs m n) ∧
      o.emerging.length = vs.length ∧ o.leaking = outs.map (fun x => ⟨x.2, d.rate, trig⟩) ∧
      (∀ u, u < h.length → o.store[u]? = h[u]?) ∧
      ∀ i, 0 < i → ∀ x, outs[i]? = some x → ∃ r, o.emerging[i]? = some r ∧ o.store[r]? = some (emit d.power trig ⟨x.1, d.rate, 0⟩) := by
  have hlen : outs.length = vs.length := (hf.length_eq.symm.trans hv.length_eq.symm)
  set es := outs.map (fun x => emit d.power trig ⟨x.1, d.rate, 0⟩) with hes
  have hesl : es.length = outs.length := by simp [hes]
  have hrefs : ∀ u ∈ (List.range es.length).map (h.length + ·), ∃ a, (h ++ es)[u]? = some a ∧
      Emitted d.rate d.antennas trig a := by
    intro u hu
    obtain ⟨i, hi, rfl⟩ := List.mem_map.mp hu
    have hi' : i < es.length := List.mem_range.mp hi
    refine ⟨es[i], by rw [refs_get _ _ i, List.getElem?_eq_getElem hi'], ?_⟩
    obtain ⟨h1, h2⟩ := ho outs[i] (List.getElem_mem _)
    simp only [hes, List.getElem_map]
    exact ⟨⟨h1, h2, by simp [emit]⟩, rfl⟩
  obtain ⟨k, hk⟩ : ∃ k, es.length = k + 1 := ⟨es.length - 1, by
    have : 0 < outs.length := List.length_pos_of_ne_nil hne
    omega⟩
  have hsplit : (List.range es.length).map (h.length + ·) =
      (h.length + 0) :: (List.range k).map (fun i => h.length + (i + 1)) := by
    rw [hk, List.range_succ_eq_map, List.map_cons, List.map_map]
    rfl
  have hnot : h.length + 0 ∉ (List.range k).map (fun i => h.length + (i + 1)) := by
    intro hc
    obtain ⟨i, _, hi⟩ := List.mem_map.mp hc
    omega
  obtain ⟨h', t', s', e1, g1, p1, x1, u1⟩ := mix_plain d.rate d.antennas trig trig hA (h.length + 0) _ (h ++ es) hnot
    (by rw [← hsplit]; exact hrefs)
  rw [← hsplit] at e1 x1
  have hsepok := separate_ok d h sigs vs outs hv hf
  refine ⟨⟨h', (List.range es.length).map (h.length + ·), outs.map (fun x => ⟨x.2, d.rate, trig⟩), t'⟩, s', ?_, g1,
    p1.1.1, p1.2, p1.1.2.2, ?_, by simp [hesl, hlen], rfl, ?_, ?_⟩
  · unfold TxDevice.generate
    rw [if_neg (by simp [hp])]
    simp only [TxDevice.propagate, hsep, if_true, hsepok, List.length_map, List.map_map, Function.comp_def]
    rw [hesl] at e1
    have : (outs.map fun x => emit d.power trig ⟨x.1, d.rate, 0⟩) = es := rfl
    rw [this, e1]
    simp [hesl]
  · intro m n
    rw [x1, sumAt_refs]
    unfold emittedSum
    rw [hes, List.map_map]
    congr 1
    exact List.map_congr_left (fun o _ => emit_get _ _ _ _ _ _)
  · intro u hu
    simp only
    rw [u1 u (by omega) (by simp; omega), List.getElem?_append_left hu]
  · intro i hi x hx
    have hil : i < es.length := by
      rw [hesl]
      by_contra hc
      rw [List.getElem?_eq_none (by omega)] at hx
      cases hx
    refine ⟨h.length + i, by simp [hil], ?_⟩
    simp only
    rw [u1 (h.length + i) (by omega) (by simp; omega), refs_get _ _ i, hes, List.getElem?_map, hx]
    rfl

/-- C87: without separated operators, if no ports are selected and the transmissions start together with a stream for
each DSP port, the front-end is given the encoded sum of all transmissions; what it emits, of the power of the device
and starting at the trigger, is the only emerging signal and the mixed output, also of `transmit`. -/
theorem C87_superimposed_partial (d : TxDevice) (hsep : d.separation = false) (h : List Dense) (δ trig : ℚ) (hP : 0 < d.dspPorts)
    (v : ℕ) (vs : List ℕ) (ports : List Ports) (hl : ports.length = vs.length + 1) (hp : ∀ p ∈ ports, p = none)
    (hd : v ∉ vs) (hv : ∀ u ∈ v :: vs, ∃ a, h[u]? = some a ∧ Plain d.dspPorts δ a) :
    ∃ s, s.a.M = d.dspPorts ∧ (∀ m n, s.a.get m n = sumAt h (v :: vs) m n) ∧
      ∀ c e l, d.encode s = .ok c → d.front c.a = .ok (e, l) → e.M = d.antennas →
        ∃ o r, d.transmit h ((v :: vs).map some) ports trig = .ok o ∧ o.emerging = [r] ∧ o.mixed = r ∧
          o.leaking = [⟨l, d.rate, trig⟩] ∧ o.store[r]? = some (emit d.power trig ⟨e, d.rate, 0⟩) := by
  obtain ⟨h', t, s, hgen, hs, hM, -, hsum, -⟩ := Verif.Core.C50_output_partial h d.rate d.dspPorts δ hP v vs ports hl hp hd hv
  refine ⟨s, hM, hsum, fun c e l hc hfr heM => ?_⟩
  unfold Verif.Core.generateOutput at hgen
  rw [if_neg (by simp)] at hgen
  set x := emit d.power trig ⟨e, d.rate, 0⟩ with hx
  have hx1 : (h' ++ [x])[h'.length + 0]? = some x := by simp
  have hm1 := mix_single d.rate d.antennas trig (h'.length + 0) (h' ++ [x]) x hx1 rfl heM
  have hx2 : (h' ++ [x] ++ [(⟨Arr.zeros d.antennas 0, d.rate, trig⟩ : Dense)])[h'.length + 0]? = some x := by
    rw [List.getElem?_append_left (by simp), hx1]
  have hm2 := mix_single d.rate d.antennas trig (h'.length + 0) _ x hx2 rfl heM
  have hgen' : d.generate h ((v :: vs).map some) ports trig = .ok ⟨h' ++ [x] ++ [⟨Arr.zeros d.antennas 0, d.rate, trig⟩],
      [h'.length + 0], [⟨l, d.rate, trig⟩], h'.length + 0⟩ := by
    unfold TxDevice.generate
    rw [if_neg (by simp [hl])]
    have hprop : d.propagate h ((v :: vs).map some) ports = .ok (h', [(⟨e, d.rate, 0⟩, ⟨l, d.rate, 0⟩)]) := by
      simp only [TxDevice.propagate, hsep, Bool.false_eq_true, if_false, hgen, hs, hP, if_true, hc, TxDevice.simulate, hfr]
    rw [hprop]
    have hm1' : mix d.rate d.antennas trig (h' ++ List.map (fun p : Dense × Dense => emit d.power trig p.1)
        [(⟨e, d.rate, 0⟩, ⟨l, d.rate, 0⟩)]) ((List.range 1).map (h'.length + ·)) = _ := hm1
    simp only [List.length_singleton, hm1']
    simp [List.range_one]
  refine ⟨⟨h' ++ [x] ++ [⟨Arr.zeros d.antennas 0, d.rate, trig⟩] ++ [⟨Arr.zeros d.antennas 0, d.rate, trig⟩],
    [h'.length + 0], [⟨l, d.rate, trig⟩], h'.length + 0⟩, h'.length + 0, ?_, rfl, rfl, rfl, ?_⟩
  · unfold TxDevice.transmit
    rw [hgen']
    simp only [rebuild, hm2]
  · simp only
    rw [List.getElem?_append_left (by simp), hx2]

/-- C87: other numbers of transmissions than of operators are refused. -/
theorem C87_count (d : TxDevice) (h : List Dense) (tx : List (Option ℕ)) (ports : List Ports) (trig : ℚ)
    (hl : tx.length ≠ ports.length) : d.generate h tx ports trig = .error .value := if_pos hl

/-- C87: signals of other stream counts than the antennas, or of another sampling rate, cannot be emitted. -/
theorem C87_invalid (rate : ℚ) (P : ℕ) (trig : ℚ) (h : List Dense) (v : ℕ) (vs : List ℕ) (s : Dense) (hs : h[v]? = some s)
    (hbad : s.rate ≠ rate ∨ s.a.M ≠ P) : mix rate P trig h (v :: vs) = .error .value := by
  have hk : (h ++ [(⟨Arr.zeros P 0, rate, trig⟩ : Dense)])[v]? = some s := by
    rw [List.getElem?_append_left (lt_of_getElem?_some hs), hs]
  simp only [mix, mixLoop, hk]
  rcases hbad with h1 | h1
  · simp [h1]
  · by_cases h2 : s.rate = rate <;> simp [h1, h2]

/-! ### What is false of the code -/

theorem superimposeRef_fits (h : List Dense) (t v : ℕ) (P : ℕ) (δ : ℚ) (hP : 0 < P) (s a : Dense) (hs : h[t]? = some s)
    (ha : h[v]? = some a) (ps : Plain P δ s) (pa : Plain P δ a) (hN : a.a.N ≤ s.a.N) :
    ∃ s', superimposeRef h t v none = .ok (h.set t s', t) ∧ Plain P δ s' ∧ s'.rate = s.rate ∧ s'.a.N = s.a.N ∧
      ∀ m n, s'.a.get m n = s.a.get m n + a.a.get m n := by
  obtain ⟨sM, sN, sd⟩ := ps
  obtain ⟨aM, aN, ad⟩ := pa
  have hal : s.aligned a = a.a := by unfold Dense.aligned; rw [if_neg (by simp [sd, ad])]
  have hd : decide (a.a.M ≤ s.a.M ∧ a.a.N ≤ s.a.N) = true := by
    simp only [decide_eq_true_eq]; omega
  obtain ⟨r, e, rM, rN, rg⟩ := update_get (fun x y => x + y) s.a 0 s.a.M 0 a.a.N a.a (le_refl _) hN (by omega) (by omega)
  have e' : s.a.addTo 0 s.a.M 0 a.a.N a.a = .ok r := e
  refine ⟨{ s with a := r }, ?_, ⟨by rw [rM]; exact sM, by dsimp only; omega, sd⟩, rfl, rN, ?_⟩
  · unfold superimposeRef
    rw [hs, ha]
    dsimp only
    rw [if_neg (by have : 0 < s.a.M * s.a.N := Nat.mul_pos (by omega) sN; omega), hal, hd]
    simp only [if_true]
    show (s.a.addTo 0 s.a.M 0 a.a.N a.a >>= _) = _
    rw [e']; rfl
  · intro m n
    dsimp only
    rw [rg]
    split
    · simp
    · rename_i hc
      have : a.a.get m n = 0 := by unfold Arr.get; rw [if_neg (by omega)]
      rw [this, add_zero]

theorem mixLoop_fits (rate : ℚ) (P : ℕ) (δ : ℚ) (hP : 0 < P) (vs : List ℕ) (h : List Dense) (t : ℕ) (s : Dense)
    (hs : h[t]? = some s) (ps : Emitted rate P δ s) (ht : t ∉ vs)
    (hv : ∀ v ∈ vs, ∃ a, h[v]? = some a ∧ Emitted rate P δ a ∧ a.a.N ≤ s.a.N) :
    ∃ s', mixLoop rate P h t vs = .ok (h.set t s', t) ∧ Emitted rate P δ s' ∧ s'.a.N = s.a.N ∧
      ∀ m n, s'.a.get m n = s.a.get m n + sumAt h vs m n := by
  induction vs generalizing h s with
  | nil =>
    refine ⟨s, ?_, ps, rfl, by simp [sumAt]⟩
    simp only [mixLoop]
    congr 2
    apply List.ext_getElem?
    intro i
    by_cases e : i = t
    · subst e; rw [List.getElem?_set_self (lt_of_getElem?_some hs), hs]
    · rw [List.getElem?_set_ne (fun x => e x.symm)]
  | cons v vs ih =>
    obtain ⟨a, ha, pa, na⟩ := hv v List.mem_cons_self
    obtain ⟨s1, e1, p1, r1, n1, x1⟩ := superimposeRef_fits h t v P δ hP s a hs ha ps.1 pa.1 na
    have htl := lt_of_getElem?_some hs
    have hkeep : ∀ u ∈ vs, (h.set t s1)[u]? = h[u]? := fun u hu =>
      List.getElem?_set_ne (fun e => ht (by rw [e]; exact List.mem_cons_of_mem _ hu))
    obtain ⟨s2, e2, p2, n2, x2⟩ := ih (h.set t s1) s1 (by rw [List.getElem?_set_self htl]) ⟨p1, r1.trans ps.2⟩
      (fun hc => ht (List.mem_cons_of_mem _ hc)) (fun u hu => by
        obtain ⟨b, hb, pb, nb⟩ := hv u (List.mem_cons_of_mem _ hu)
        exact ⟨b, by rw [hkeep u hu, hb], pb, by omega⟩)
    refine ⟨s2, ?_, p2, by omega, fun m n => ?_⟩
    · simp only [mixLoop, ha, pa.2, pa.1.1, ne_eq, not_true_eq_false, if_false, e1, e2, List.set_set]
    · rw [x2, x1]
      have e3 : sumAt (h.set t s1) vs m n = sumAt h vs m n := by
        unfold sumAt
        congr 1
        exact List.map_congr_left (fun u hu => by rw [hkeep u hu])
      have e4 : sumAt h (v :: vs) m n = a.a.get m n + sumAt h vs m n := by
        unfold sumAt; rw [List.map_cons, List.sum_cons, ha]
      rw [e3, e4, add_assoc]

/-- Outputs built `k` times from the same emerging signals. -/
def rebuildTimes (rate : ℚ) (P : ℕ) (trig : ℚ) : ℕ → Output → Except PyErr Output
  | 0, o => .ok o
  | k + 1, o =>
    match rebuildTimes rate P trig k o with
    | .error e => .error e
    | .ok o => rebuild rate P trig o

theorem mix_fits (rate : ℚ) (P : ℕ) (δ trig : ℚ) (hP : 0 < P) (v : ℕ) (vs : List ℕ) (h : List Dense) (a : Dense)
    (ha : h[v]? = some a) (pa : Emitted rate P δ a) (hd : v ∉ vs)
    (hv : ∀ u ∈ vs, ∃ b, h[u]? = some b ∧ Emitted rate P δ b ∧ b.a.N ≤ a.a.N) :
    ∃ h' s', mix rate P trig h (v :: vs) = .ok (h', v) ∧ h'[v]? = some s' ∧ Emitted rate P δ s' ∧ s'.a.N = a.a.N ∧
      (∀ m n, s'.a.get m n = a.a.get m n + sumAt h vs m n) ∧ ∀ u ∈ vs, h'[u]? = h[u]? := by
  have hl := lt_of_getElem?_some ha
  have keep : ∀ (u : ℕ), u < h.length → (h ++ [(⟨Arr.zeros P 0, rate, trig⟩ : Dense)])[u]? = h[u]? :=
    fun u hu => List.getElem?_append_left hu
  have hlt : ∀ u ∈ vs, u < h.length := fun u hu => by
    obtain ⟨b, hb, _⟩ := hv u hu
    exact lt_of_getElem?_some hb
  have hk : (h ++ [(⟨Arr.zeros P 0, rate, trig⟩ : Dense)])[v]? = some a := by rw [keep v hl, ha]
  obtain ⟨s', e, p, n, x⟩ := mixLoop_fits rate P δ hP vs (h ++ [⟨Arr.zeros P 0, rate, trig⟩]) v a hk pa hd (fun u hu => by
    obtain ⟨b, hb, pb⟩ := hv u hu
    exact ⟨b, by rw [keep u (hlt u hu), hb], pb⟩)
  have hemp := superimposeRef_empty (h ++ [(⟨Arr.zeros P 0, rate, trig⟩ : Dense)]) h.length v ⟨Arr.zeros P 0, rate, trig⟩ a (by simp) hk (by simp [Arr.zeros])
  refine ⟨(h ++ [(⟨Arr.zeros P 0, rate, trig⟩ : Dense)]).set v s', s', ?_, List.getElem?_set_self (by simp; omega), p, n, fun m k => ?_, fun u hu => ?_⟩
  · simp only [mix, mixLoop, hk, pa.2, pa.1.1, ne_eq, not_true_eq_false, if_false, hemp, e]
  · rw [x]
    congr 1
    unfold sumAt
    congr 1
    exact List.map_congr_left (fun u hu => by rw [keep u (hlt u hu)])
  · rw [List.getElem?_set_ne (fun e => hd (by rw [e]; exact hu)), keep u (hlt u hu)]

/-- C87 fails for separated operators: if no emerging signal is longer than the first, every time an output is built from
the emerging signals they are added to the first of them in place.  The output of `transmit`, built twice, carries the
first signal and twice the others; so does the first emerging signal itself; and each restoration of a stored output adds
them once more. -/
theorem C87_rebuilt_fails (rate : ℚ) (P : ℕ) (δ trig : ℚ) (hP : 0 < P) (v : ℕ) (vs : List ℕ) (o : Output) (a : Dense)
    (he : o.emerging = v :: vs) (ha : o.store[v]? = some a) (pa : Emitted rate P δ a) (hd : v ∉ vs)
    (hv : ∀ u ∈ vs, ∃ b, o.store[u]? = some b ∧ Emitted rate P δ b ∧ b.a.N ≤ a.a.N) (k : ℕ) :
    ∃ o' s, rebuildTimes rate P trig (k + 1) o = .ok o' ∧ o'.emerging = v :: vs ∧ o'.mixed = v ∧ o'.store[v]? = some s ∧
      ∀ m n, s.a.get m n = a.a.get m n + (k + 1) * sumAt o.store vs m n := by
  have main : ∀ k, ∃ o' s, rebuildTimes rate P trig k o = .ok o' ∧ o'.emerging = v :: vs ∧ (0 < k → o'.mixed = v) ∧
      o'.store[v]? = some s ∧ Emitted rate P δ s ∧ s.a.N = a.a.N ∧ (∀ u ∈ vs, o'.store[u]? = o.store[u]?) ∧
      ∀ m n, s.a.get m n = a.a.get m n + k * sumAt o.store vs m n := by
    intro k
    induction k with
    | zero => exact ⟨o, a, rfl, he, by simp, ha, pa, rfl, fun _ _ => rfl, by simp⟩
    | succ k ih =>
      obtain ⟨o1, s1, e1, h1, -, g1, p1, n1, u1, x1⟩ := ih
      obtain ⟨h2, s2, e2, g2, p2, n2, x2, u2⟩ := mix_fits rate P δ trig hP v vs o1.store s1 g1 p1 hd (fun u hu => by
        obtain ⟨b, hb, pb, nb⟩ := hv u hu
        exact ⟨b, by rw [u1 u hu, hb], pb, by omega⟩)
      refine ⟨{ o1 with store := h2, mixed := v }, s2, ?_, h1, fun _ => rfl, g2, p2, by omega,
        fun u hu => by rw [← u1 u hu]; exact u2 u hu, fun m n => ?_⟩
      · simp only [rebuildTimes, e1, rebuild, h1, e2]
      · rw [x2, x1]
        have : sumAt o1.store vs m n = sumAt o.store vs m n := by
          unfold sumAt
          congr 1
          exact List.map_congr_left (fun u hu => by rw [u1 u hu])
        rw [this]
        push_cast
        ring
  obtain ⟨o', s, e, h1, h2, g, -, -, -, x⟩ := main (k + 1)
  refine ⟨o', s, e, h1, h2 (by omega), g, fun m n => ?_⟩
  rw [x]; push_cast; ring

/-- C87 fails for `transmit`: with separated operators, if no emitted signal is longer than the first, all but the first
are transmitted with twice their amplitude. -/
theorem C87_transmit_fails (d : TxDevice) (hsep : d.separation = true) (h : List Dense) (vs : List ℕ)
    (sigs : List Dense) (x : Arr × Arr) (outs : List (Arr × Arr)) (ports : List Ports) (trig : ℚ)
    (hp : ports.length = vs.length) (hv : List.Forall₂ (fun v s => h[v]? = some s) vs sigs)
    (hf : List.Forall₂ (fun s o => d.front s.a = .ok o) sigs (x :: outs)) (hA : 0 < d.antennas)
    (ho : ∀ o ∈ x :: outs, o.1.M = d.antennas ∧ 0 < o.1.N ∧ o.1.N ≤ x.1.N) :
    ∃ o s, d.transmit h (vs.map some) ports trig = .ok o ∧ o.store[o.mixed]? = some s ∧
      ∀ m n, s.a.get m n = ((√d.power : ℝ) : ℂ) * x.1.get m n + 2 * emittedSum d.power outs m n := by
  set es := outs.map (fun x => emit d.power trig ⟨x.1, d.rate, 0⟩) with hes
  set e0 := emit d.power trig ⟨x.1, d.rate, 0⟩ with he0
  have hsepok := separate_ok d h sigs vs (x :: outs) hv hf
  have hsplit : (List.range (outs.length + 1)).map (h.length + ·) =
      (h.length + 0) :: (List.range outs.length).map (fun i => h.length + (i + 1)) := by
    rw [List.range_succ_eq_map, List.map_cons, List.map_map]
    rfl
  have hnot : h.length + 0 ∉ (List.range outs.length).map (fun i => h.length + (i + 1)) := by
    intro hc
    obtain ⟨i, _, hi⟩ := List.mem_map.mp hc
    omega
  have hemit : ∀ o ∈ x :: outs, Emitted d.rate d.antennas trig (emit d.power trig ⟨o.1, d.rate, 0⟩) := fun o hm =>
    ⟨⟨(ho o hm).1, (ho o hm).2.1, by simp [emit]⟩, rfl⟩
  let o0 : Output := ⟨h ++ e0 :: es, (h.length + 0) :: (List.range outs.length).map (fun i => h.length + (i + 1)),
    (x :: outs).map (fun x => ⟨x.2, d.rate, 0 + trig⟩), 0⟩
  obtain ⟨o, s, e1, -, e2, e3, e4⟩ := C87_rebuilt_fails d.rate d.antennas trig trig hA (h.length + 0) _ o0 e0 rfl
    (by rw [refs_get]; rfl) (hemit x List.mem_cons_self) hnot (fun u hu => by
      obtain ⟨i, hi, rfl⟩ := List.mem_map.mp hu
      have hi' : i < outs.length := List.mem_range.mp hi
      have hm : outs[i] ∈ x :: outs := List.mem_cons_of_mem _ (List.getElem_mem _)
      refine ⟨emit d.power trig ⟨outs[i].1, d.rate, 0⟩, ?_, hemit _ hm, (ho _ hm).2.2⟩
      show (h ++ e0 :: es)[h.length + (i + 1)]? = _
      rw [refs_get, List.getElem?_cons_succ, hes, List.getElem?_map, List.getElem?_eq_getElem hi']
      rfl) 1
  refine ⟨o, s, ?_, by rw [e2]; exact e3, fun m n => ?_⟩
  · rw [← e1]
    have hb : mix d.rate d.antennas trig (h ++ (List.map (fun p : Dense × Dense => emit d.power trig p.1)
        ((x :: outs).map fun o => (⟨o.1, d.rate, 0⟩, ⟨o.2, d.rate, 0⟩)))) ((List.range (outs.length + 1)).map (h.length + ·)) =
          mix d.rate d.antennas trig o0.store o0.emerging := by
      rw [hsplit, List.map_map]
      rfl
    unfold TxDevice.transmit TxDevice.generate
    rw [if_neg (by simp [hp])]
    simp only [TxDevice.propagate, hsep, if_true, hsepok, rebuildTimes, rebuild]
    have hl : ((x :: outs).map fun o => ((⟨o.1, d.rate, 0⟩ : Dense), (⟨o.2, d.rate, 0⟩ : Dense))).length = outs.length + 1 := by simp
    rw [hl, hb]
    cases mix d.rate d.antennas trig o0.store o0.emerging with
    | error _ => rfl
    | ok q =>
      simp only [hsplit]
      rw [List.map_map]
      rfl
  · rw [e4, he0, emit_get]
    have h1 : sumAt o0.store ((List.range outs.length).map (fun i => h.length + (i + 1))) m n = emittedSum d.power outs m n := by
      have h2 := sumAt_refs (h ++ [e0]) es m n
      have h3 : (List.range es.length).map ((h ++ [e0]).length + ·) = (List.range outs.length).map (fun i => h.length + (i + 1)) := by
        simp only [hes, List.length_map, List.length_append, List.length_singleton]
        exact List.map_congr_left (fun i _ => by omega)
      rw [h3, List.append_assoc] at h2
      refine h2.trans ?_
      unfold emittedSum
      rw [hes, List.map_map]
      congr 1
      exact List.map_congr_left (fun o _ => emit_get _ _ _ _ _ _)
    rw [h1]
    norm_num

/-- C87 fails for the leakage: leaking signals do not have the power of the device, they are the same for all powers. -/
theorem C87_leakage_power_fails (d : TxDevice) (hsep : d.separation = true) (h : List Dense) (vs : List ℕ)
    (sigs : List Dense) (outs : List (Arr × Arr)) (ports : List Ports) (trig : ℚ) (hne : outs ≠ [])
    (hp : ports.length = vs.length) (hv : List.Forall₂ (fun v s => h[v]? = some s) vs sigs)
    (hf : List.Forall₂ (fun s o => d.front s.a = .ok o) sigs outs) (hA : 0 < d.antennas)
    (ho : ∀ o ∈ outs, o.1.M = d.antennas ∧ 0 < o.1.N) (power power' : ℝ) :
    ∃ o o', { d with power := power }.generate h (vs.map some) ports trig = .ok o ∧
      { d with power := power' }.generate h (vs.map some) ports trig = .ok o' ∧ o.leaking = o'.leaking := by
  obtain ⟨o, -, h1, -, -, -, -, -, -, h2, -⟩ :=
    C87_separated_partial { d with power := power } hsep h vs sigs outs ports trig hne hp hv hf hA ho
  obtain ⟨o', -, h3, -, -, -, -, -, -, h4, -⟩ :=
    C87_separated_partial { d with power := power' } hsep h vs sigs outs ports trig hne hp hv hf hA ho
  exact ⟨o, o', h1, h3, h2.trans h4.symm⟩

/-- C87 fails for the selected ports and the transmit coding of separated operators: neither has any effect. -/
theorem C87_ports_fails (d : TxDevice) (hsep : d.separation = true) (h : List Dense) (tx : List (Option ℕ))
    (ports ports' : List Ports) (hp : ports.length = ports'.length) (trig : ℚ) (encode : Dense → Except PyErr Dense) :
    { d with encode := encode }.generate h tx ports' trig = d.generate h tx ports trig := by
  have hs : ∀ tx, { d with encode := encode }.separate h tx = d.separate h tx := by
    intro tx
    induction tx with
    | nil => rfl
    | cons v tx ih =>
      cases v with
      | none => rfl
      | some v => simp only [TxDevice.separate, ih]; rfl
  have hpr : { d with encode := encode }.propagate h tx ports' = d.propagate h tx ports := by
    unfold TxDevice.propagate
    rw [hs, if_pos hsep, if_pos hsep]
  unfold TxDevice.generate
  rw [hp, hpr]

/-- C87 fails for missing transmissions of separated operators: they raise an `AttributeError`, although they are skipped
by devices which do not separate their operators. -/
theorem C87_missing_fails (d : TxDevice) (hsep : d.separation = true) (h : List Dense) (tx : List (Option ℕ))
    (ports : List Ports) (hl : ports.length = tx.length + 1) (trig : ℚ) :
    d.generate h (none :: tx) ports trig = .error .attribute := by
  unfold TxDevice.generate
  rw [if_neg (by simp [hl])]
  simp only [TxDevice.propagate, hsep, if_true, TxDevice.separate]

/-- C87 fails for delayed transmissions: the delay of a transmission is lost, the device emits at the trigger. -/
theorem C87_delay_fails (d : TxDevice) (hsep : d.separation = true) (h : List Dense) (v : ℕ) (s : Dense) (hv : h[v]? = some s)
    (hs : s.delay ≠ 0) (e l : Arr) (hf : d.front s.a = .ok (e, l)) (hA : 0 < d.antennas) (he : e.M = d.antennas) (hN : 0 < e.N)
    (trig : ℚ) :
    ∃ o x, d.generate h [some v] [none] trig = .ok o ∧ o.store[o.mixed]? = some x ∧ x.delay ≠ trig + s.delay := by
  obtain ⟨o, x, h1, h2, -, -, h3, -⟩ := C87_separated_partial d hsep h [v] [s] [(e, l)] [none] trig (by simp) rfl
    (.cons hv .nil) (.cons hf .nil) hA (by simpa using ⟨he, hN⟩)
  refine ⟨o, x, h1, h2, ?_⟩
  rw [h3]
  intro hc
  exact hs (by linarith)

/-! ### Examples -/

/-- A device of two antennas whose front-end passes the samples to the antennas and leaks nothing. -/
def demoDevice : TxDevice := ⟨1, 2, 2, 4, true, fun s => .ok s, fun a => .ok (a, Arr.zeros 2 0)⟩

example : List.Forall₂ (fun v s => [Verif.Core.demoV, Verif.Core.demoW][v]? = some s) [0, 1] [Verif.Core.demoV, Verif.Core.demoW] ∧
    List.Forall₂ (fun s o => demoDevice.front s.a = .ok o) [Verif.Core.demoV, Verif.Core.demoW]
      [(Verif.Core.demoV.a, Arr.zeros 2 0), (Verif.Core.demoW.a, Arr.zeros 2 0)] :=
  ⟨.cons rfl (.cons rfl .nil), .cons rfl (.cons rfl .nil)⟩

example : Emitted 1 2 0 Verif.Core.demoV ∧ Emitted 1 2 0 Verif.Core.demoW :=
  ⟨⟨⟨rfl, by decide, rfl⟩, rfl⟩, ⟨⟨rfl, by decide, rfl⟩, rfl⟩⟩

end Verif.SimDev
