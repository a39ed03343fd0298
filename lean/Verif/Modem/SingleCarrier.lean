import Mathlib.Algebra.Field.Basic
import Mathlib.Algebra.Field.Rat
import Mathlib.Data.List.Sort
import Mathlib.Tactic.FieldSimp
import Mathlib.Tactic.Ring
import Verif.Modem.Frame
import Verif.Modem.Pilot

/-!
# C91: frames of single carrier waveforms

`hermespy/modem/waveform_single_carrier.py`: configuration, placement of data and reference symbols, least squares channel
estimation, equalization and storage.  Symbols are elements of a field.  Blocks hold a single symbol, as `place` and
`demodulate` yield.  The divisions of line 338 are exact.
-/

namespace Verif.SingleCarrier

variable {K : Type}

/-- `FilteredSingleCarrierWaveform`, lines 63-68, with the attributes of `ConfigurablePilotWaveform`
(`hermespy/modem/waveform.py` 761-766). -/
structure Waveform (K : Type) where
  order : ℤ
  pre : ℕ
  data : ℕ
  post : ℕ
  rate : ℕ
  guard : ℚ
  sequence : List K
  «repeat» : Bool
  deriving DecidableEq

/-- The `modulation_order` setter, lines 204-210 and `hermespy/modem/waveform.py` 315-332.  `mapping` are the constellations
of `PskQamMapping`, or the errors they raise.  The pilot sequence is replaced before the order is checked. -/
def Waveform.setOrder (mapping : ℤ → Except PyErr (List K)) (w : Waveform K) (order : ℤ) :
    Option PyErr × Waveform K :=
  match mapping order with
  | .error e => (some e, w)
  | .ok points =>
    if order ≤ 0 ∨ order.toNat &&& (order.toNat - 1) ≠ 0 then (some .value, { w with sequence := points })
    else (none, { w with sequence := points, order := order })

/-- `FilteredSingleCarrierWaveform.__init__`, lines 70-127, and the setters of lines 178-183, 197-202, 307-312, 326-331 and
381-386. -/
def Waveform.new (mapping : ℤ → Except PyErr (List K)) (order pre data post rate : ℤ) (guard : ℚ)
    (sequence : Option (List K)) (repeats : Bool) : Except PyErr (Waveform K) :=
  match mapping order with
  | .error e => .error e
  | .ok points =>
    if order ≤ 0 ∨ order.toNat &&& (order.toNat - 1) ≠ 0 then .error .value
    else if pre < 0 then .error .value
    else if data < 0 then .error .value
    else if post < 0 then .error .value
    else if rate < 0 then .error .value
    else if guard < 0 then .error .value
    else .ok ⟨order, pre.toNat, data.toNat, post.toNat, rate.toNat, guard, sequence.getD points, repeats⟩

/-- `_num_pilot_symbols`, lines 333-338. -/
def Waveform.numPilots (w : Waveform K) : ℕ := if w.rate = 0 then 0 else w.data / w.rate - 1

/-- `_num_payload_symbols`, lines 340-343. -/
def Waveform.payload (w : Waveform K) : ℕ := w.data + w.numPilots

/-- `_num_frame_symbols`, lines 345-347. -/
def Waveform.size (w : Waveform K) : ℕ := w.pre + w.payload + w.post

/-- `_pilot_symbol_indices`, lines 349-357. -/
def Waveform.pilotIndices (w : Waveform K) : List ℕ :=
  if w.rate = 0 then [] else (List.range w.numPilots).map fun k => (k + 1) * (1 + w.rate) - 1

/-- `np.delete` of an array of distinct values equal to their indices. -/
def delete (n : ℕ) (idx : List ℕ) : Except PyErr (List ℕ) :=
  if idx.all (· < n) then .ok ((List.range n).filter fun i => i ∉ idx) else .error .index

/-- `_data_symbol_indices`, lines 359-369. -/
def Waveform.dataIndices (w : Waveform K) : Except PyErr (List ℕ) :=
  if w.pilotIndices.length > 0 then delete w.payload w.pilotIndices else .ok (List.range w.payload)

/-- Assignment to an array at integer indices. -/
def assign (a : List K) (idx : List ℕ) (values : List K) : Except PyErr (List K) :=
  if idx.all (· < a.length) then
    match Modem.rowAssign idx.length values with
    | .error e => .error e
    | .ok v => .ok ((idx.zip v).foldl (fun a p => a.set p.1 p.2) a)
  else .error .index

/-- Reading an array at integer indices. -/
def select (a : List K) (idx : List ℕ) : Except PyErr (List K) :=
  if idx.all (· < a.length) then .ok (idx.filterMap (a[·]?)) else .error .index

/-- `pilot_symbols`, `hermespy/modem/waveform.py` 797-820. -/
def Waveform.pilots (w : Waveform K) (n : ℕ) : Except PyErr (List K) := Modem.pilotSymbols w.sequence w.repeat n

/-- `place`, lines 237-262, of the flattened data symbols.  `mem` is what `np.empty` finds in memory. -/
def Waveform.place (w : Waveform K) (mem : ℕ → K) (symbols : List K) : Except PyErr (List K) :=
  match w.pilots (w.pre + w.numPilots + w.post) with
  | .error e => .error e
  | .ok p =>
    let a := (List.range w.size).map mem
    match Modem.rowAssign (a.take w.pre).length (p.take w.pre) with
    | .error e => .error e
    | .ok v =>
      let a := v ++ a.drop w.pre
      match Modem.rowAssign (a.drop (w.pre + w.payload)).length (p.drop (w.pre + w.numPilots)) with
      | .error e => .error e
      | .ok v =>
        let a := a.take (w.pre + w.payload) ++ v
        match assign a (w.pilotIndices.map (w.pre + ·)) ((p.drop w.pre).take w.numPilots) with
        | .error e => .error e
        | .ok a =>
          match w.dataIndices with
          | .error e => .error e
          | .ok idx => assign a (idx.map (w.pre + ·)) symbols

/-- `pick`, lines 264-270, of a stream of symbols or a stream of states. -/
def Waveform.pick (w : Waveform K) (blocks : List K) : Except PyErr (List K) :=
  match w.dataIndices with
  | .error e => .error e
  | .ok idx => select blocks (idx.map (w.pre + ·))

/-- `np.interp(x, xp, fp)` of integers `x` and sample points in ascending order. -/
def interp [Field K] : List (ℕ × K) → ℕ → K
  | [], _ => 0
  | [(_, u)], _ => u
  | (a, u) :: (b, v) :: rest, x =>
    if x ≤ a then u
    else if x < b then (v - u) / ((b : K) - a) * ((x : K) - a) + u
    else interp ((b, v) :: rest) x

/-- Division of arrays of one dimension with broadcasting. -/
def divide [Field K] (a b : List K) : Except PyErr (List K) :=
  if a.length = b.length then .ok (List.zipWith (· / ·) a b)
  else match a, b with
    | [x], b => .ok (b.map (x / ·))
    | a, [y] => .ok (a.map (· / y))
    | _, _ => .error .value

/-- `channel_estimation_stem_indices`, lines 547-553. -/
def Waveform.stems (w : Waveform K) : List ℕ :=
  List.range w.pre ++ w.pilotIndices.map (· + w.pre) ++ (List.range w.post).map (· + w.pre + w.payload)

/-- `SingleCarrierLeastSquaresChannelEstimation.estimate_channel`, lines 516-563, for one of the streams.  All of them are
treated alike. -/
def Waveform.estimate [Field K] (w : Waveform K) (blocks : List K) : Except PyErr (List K) :=
  match w.pilots (w.pre + w.numPilots + w.post) with
  | .error e => .error e
  | .ok p =>
    match select ((blocks.drop w.pre).take w.payload) w.pilotIndices with
    | .error e => .error e
    | .ok middle =>
      match divide (blocks.take w.pre ++ middle ++ blocks.drop (w.pre + w.payload)) p with
      | .error e => .error e
      | .ok values =>
        if w.stems.length = 0 then .error .value
        else if values.length ≠ w.stems.length then .error .value
        else .ok ((List.range blocks.length).map (interp (w.stems.zip values)))

/-- `ZeroForcingChannelEqualization.equalize_channel` of a single stream and a single transmitted stream,
`hermespy/modem/waveform.py` 238-250. -/
def zeroForcing [Field K] (blocks states : List K) : List K := List.zipWith (· / ·) blocks states

/-- `SingleCarrierMinimumMeanSquareChannelEqualization.equalize_channel`, lines 599-611, of `tx` transmitted and `rx`
received streams, up to the pseudo inverse.  The inverse of the infinite ratio of line 602 is zero. -/
def minimumMeanSquare [Field K] (tx rx : ℕ) (blocks states : List K) (pinv : Except PyErr (List K)) :
    Except PyErr (List K) :=
  if tx < 2 ∧ rx < 2 then .ok (List.zipWith (fun x s => x / (s + 0)) blocks states)
  else if tx > rx then .error .runtime
  else pinv

/-- What `serialize` writes, lines 449-456 and `hermespy/modem/waveform.py` 613-614. -/
structure Stored where
  order : ℤ
  pre : ℤ
  data : ℤ
  post : ℤ
  guard : ℚ
  rate : ℤ

def Waveform.serialize (w : Waveform K) : Stored := ⟨w.order, w.pre, w.data, w.post, w.guard, w.rate⟩

/-- `Deserialize`, lines 458-482.  Neither pilot sequences nor the repetition flag are passed on. -/
def Stored.deserialize (mapping : ℤ → Except PyErr (List K)) (s : Stored) : Except PyErr (Waveform K) :=
  Waveform.new mapping s.order s.pre s.data s.post s.rate s.guard none true

/-! ### Where symbols are -/

/-- The position of data symbol `d`: after every `rate` of them, but for the last, there is a pilot. -/
def Waveform.dataAt (w : Waveform K) (d : ℕ) : ℕ :=
  w.pre + d + if w.rate = 0 then 0 else min (d / w.rate) (w.data / w.rate - 1)

/-- The position of reference symbol `k`: preamble, pilots, postamble. -/
def Waveform.referenceAt (w : Waveform K) (k : ℕ) : ℕ :=
  if k < w.pre then k
  else if k < w.pre + w.numPilots then w.pre + (k - w.pre) * (w.rate + 1) + w.rate
  else k + w.data

theorem pilotIndices_eq (w : Waveform K) :
    w.pilotIndices = (List.range w.numPilots).map fun k => k * (w.rate + 1) + w.rate := by
  unfold Waveform.pilotIndices
  split
  · next h => simp [Waveform.numPilots, h]
  · refine List.map_congr_left fun k _ => ?_
    have : (k + 1) * (1 + w.rate) = k * (w.rate + 1) + w.rate + 1 := by ring
    omega

theorem numPilots_bound (w : Waveform K) (h : w.rate ≠ 0) (hp : 0 < w.numPilots) :
    w.numPilots * w.rate + w.rate ≤ w.data := by
  unfold Waveform.numPilots at *
  rw [if_neg h] at *
  have h1 := Nat.div_mul_le_self w.data w.rate
  have h2 : (w.data / w.rate - 1 + 1) * w.rate = w.data / w.rate * w.rate := by
    rw [Nat.sub_add_cancel (by omega)]
  have h3 : (w.data / w.rate - 1 + 1) * w.rate = (w.data / w.rate - 1) * w.rate + w.rate := by ring
  omega

theorem pilot_lt (w : Waveform K) (k : ℕ) (hk : k < w.numPilots) : k * (w.rate + 1) + w.rate < w.payload := by
  by_cases h : w.rate = 0
  · simp [Waveform.numPilots, h] at hk
  have h1 := numPilots_bound w h (by omega)
  have h2 : (k + 1) * w.rate ≤ w.numPilots * w.rate := Nat.mul_le_mul_right _ hk
  have h3 : (k + 1) * w.rate = k * w.rate + w.rate := by ring
  have h4 : k * (w.rate + 1) = k * w.rate + k := by ring
  unfold Waveform.payload
  omega

theorem dataAt_spec (w : Waveform K) (j : ℕ) :
    (∃ d < w.data, w.dataAt d = w.pre + j) ↔ j < w.payload ∧ j ∉ w.pilotIndices := by
  rw [pilotIndices_eq]
  simp only [List.mem_map, List.mem_range, not_exists, not_and]
  by_cases h : w.rate = 0
  · simp only [Waveform.dataAt, Waveform.payload, Waveform.numPilots, h, if_pos]
    constructor
    · rintro ⟨d, hd, e⟩
      exact ⟨by omega, by omega⟩
    · rintro ⟨hj, _⟩
      exact ⟨j, by omega, by omega⟩
  have hP : w.data / w.rate - 1 = w.numPilots := by simp [Waveform.numPilots, h]
  simp only [Waveform.dataAt, if_neg h, hP]
  have hr : 0 < w.rate := by omega
  constructor
  · rintro ⟨d, hd, e⟩
    have e : d + min (d / w.rate) w.numPilots = j := by omega
    refine ⟨by unfold Waveform.payload; omega, fun k hk hkj => ?_⟩
    have h1 := Nat.div_add_mod d w.rate
    have h2 := Nat.mod_lt d hr
    have h4 : k * (w.rate + 1) = w.rate * k + k := by ring
    rcases Nat.lt_or_ge (d / w.rate) w.numPilots with hc | hc
    · rw [Nat.min_eq_left (by omega)] at e
      rcases Nat.lt_trichotomy (d / w.rate) k with hlt | heq | hgt
      · have h3 : w.rate * (d / w.rate + 1) ≤ w.rate * k := Nat.mul_le_mul_left _ hlt
        have h5 : w.rate * (d / w.rate + 1) = w.rate * (d / w.rate) + w.rate := by ring
        omega
      · rw [heq] at h1 e
        omega
      · have h3 : w.rate * (k + 1) ≤ w.rate * (d / w.rate) := Nat.mul_le_mul_left _ hgt
        have h5 : w.rate * (k + 1) = w.rate * k + w.rate := by ring
        omega
    · rw [Nat.min_eq_right hc] at e
      have h3 : w.rate * (k + 1) ≤ w.rate * (d / w.rate) := Nat.mul_le_mul_left _ (by omega)
      have h5 : w.rate * (k + 1) = w.rate * k + w.rate := by ring
      omega
  · rintro ⟨hj, hn⟩
    rcases Nat.lt_or_ge j (w.numPilots * (w.rate + 1)) with hc | hc
    · have h1 := Nat.div_add_mod j (w.rate + 1)
      have h2 := Nat.mod_lt j (show 0 < w.rate + 1 by omega)
      have hq : j / (w.rate + 1) < w.numPilots := (Nat.div_lt_iff_lt_mul (by omega)).mpr hc
      have hm : j % (w.rate + 1) ≠ w.rate := fun e => hn _ hq (by rw [e, Nat.mul_comm] at h1; omega)
      have h3 := numPilots_bound w h (Nat.lt_of_le_of_lt (Nat.zero_le _) hq)
      have h4 : w.rate * (j / (w.rate + 1) + 1) ≤ w.rate * w.numPilots := Nat.mul_le_mul_left _ hq
      have h5 : w.rate * (j / (w.rate + 1) + 1) = w.rate * (j / (w.rate + 1)) + w.rate := by ring
      have h6 : w.rate * w.numPilots = w.numPilots * w.rate := by ring
      have h7 : (w.rate + 1) * (j / (w.rate + 1)) = w.rate * (j / (w.rate + 1)) + j / (w.rate + 1) := by ring
      refine ⟨w.rate * (j / (w.rate + 1)) + j % (w.rate + 1), by omega, ?_⟩
      rw [Nat.mul_add_div hr, Nat.div_eq_of_lt (by omega : j % (w.rate + 1) < w.rate),
        Nat.add_zero (j / (w.rate + 1)), Nat.min_eq_left hq.le]
      omega
    · have h3 : w.numPilots * (w.rate + 1) = w.numPilots * w.rate + w.numPilots := by ring
      refine ⟨j - w.numPilots, by unfold Waveform.payload at hj; omega, ?_⟩
      rw [Nat.min_eq_right ((Nat.le_div_iff_mul_le hr).mpr (by omega))]
      omega

theorem dataAt_strict (w : Waveform K) {a b : ℕ} (h : a < b) : w.dataAt a < w.dataAt b := by
  unfold Waveform.dataAt
  split
  · omega
  · have := Nat.div_le_div_right (c := w.rate) h.le
    omega

theorem dataIndices_eq (w : Waveform K) :
    ∃ idx, w.dataIndices = .ok idx ∧ idx.map (w.pre + ·) = (List.range w.data).map w.dataAt := by
  have key : ((List.range w.payload).filter fun i => i ∉ w.pilotIndices).map (w.pre + ·) =
      (List.range w.data).map w.dataAt := by
    apply List.Perm.eq_of_pairwise (le := (· < ·))
    · intro a b _ _ h1 h2
      omega
    · rw [List.pairwise_map]
      exact ((List.pairwise_lt_range).filter _).imp fun h => by omega
    · rw [List.pairwise_map]
      exact List.pairwise_lt_range.imp fun h => dataAt_strict w h
    · rw [List.perm_ext_iff_of_nodup]
      · intro x
        simp only [List.mem_map, List.mem_filter, List.mem_range, decide_eq_true_eq]
        constructor
        · rintro ⟨j, hj, rfl⟩
          exact (dataAt_spec w j).mpr hj
        · rintro ⟨d, hd, rfl⟩
          have hge : w.pre ≤ w.dataAt d := by unfold Waveform.dataAt; omega
          exact ⟨w.dataAt d - w.pre, (dataAt_spec w _).mp ⟨d, hd, by omega⟩, by omega⟩
      · exact ((List.nodup_range).filter _).map fun a b h => by simpa using h
      · refine (List.nodup_range).map_on ?_
        intro a _ b _ hab
        by_contra hne
        rcases Nat.lt_or_gt_of_ne hne with h | h
        · have := dataAt_strict w h; omega
        · have := dataAt_strict w h; omega
  unfold Waveform.dataIndices
  split
  · refine ⟨_, ?_, key⟩
    unfold delete
    rw [if_pos]
    rw [List.all_eq_true, pilotIndices_eq]
    intro x hx
    obtain ⟨k, hk, rfl⟩ := List.mem_map.mp hx
    simpa using pilot_lt w k (List.mem_range.mp hk)
  · next h =>
    have he : w.pilotIndices = [] := by simpa using h
    refine ⟨_, rfl, ?_⟩
    rw [he] at key
    simpa using key

theorem rowAssign_same (n : ℕ) (xs : List K) (h : xs.length = n) : Modem.rowAssign n xs = .ok xs := by
  simp [Modem.rowAssign, h]

theorem rowAssign_single (n : ℕ) (x : K) : Modem.rowAssign n [x] = .ok (List.replicate n x) := by
  unfold Modem.rowAssign
  split
  · next h => rw [← h]; rfl
  · rfl

theorem rowAssign_other (n : ℕ) (xs : List K) (h : xs.length ≠ n) (h1 : xs.length ≠ 1) :
    Modem.rowAssign n xs = .error .value := by
  unfold Modem.rowAssign
  rw [if_neg h]
  match xs, h1 with
  | [], _ => rfl
  | [x], h => simp at h
  | x :: y :: l, _ => rfl

theorem foldl_set_length (l : List (ℕ × K)) (a : List K) :
    (l.foldl (fun a p => a.set p.1 p.2) a).length = a.length := by
  induction l generalizing a with
  | nil => rfl
  | cons p l ih => rw [List.foldl_cons, ih, List.length_set]

theorem foldl_set_other (l : List (ℕ × K)) (a : List K) (i : ℕ) (h : i ∉ l.map Prod.fst) :
    (l.foldl (fun a p => a.set p.1 p.2) a)[i]? = a[i]? := by
  induction l generalizing a with
  | nil => rfl
  | cons p l ih =>
    simp only [List.map_cons, List.mem_cons, not_or] at h
    rw [List.foldl_cons, ih _ h.2, List.getElem?_set_ne (Ne.symm h.1)]

theorem foldl_set_mem (l : List (ℕ × K)) (a : List K) (hn : (l.map Prod.fst).Nodup) (p : ℕ × K) (hp : p ∈ l)
    (hi : p.1 < a.length) : (l.foldl (fun a p => a.set p.1 p.2) a)[p.1]? = some p.2 := by
  induction l generalizing a with
  | nil => simp at hp
  | cons q l ih =>
    simp only [List.map_cons, List.nodup_cons] at hn
    rw [List.foldl_cons]
    rcases List.mem_cons.mp hp with rfl | hp
    · rw [foldl_set_other _ _ _ hn.1, List.getElem?_set_self hi]
    · exact ih _ hn.2 hp (by simpa using hi)

/-- Assigning as many values as there are indices, all of them valid and different. -/
theorem assign_ok (a : List K) (idx : List ℕ) (values : List K) (hb : ∀ i ∈ idx, i < a.length) (hn : idx.Nodup)
    (hl : values.length = idx.length) : ∃ b, assign a idx values = .ok b ∧ b.length = a.length ∧
      (∀ k < idx.length, b[idx.getD k 0]? = values[k]?) ∧ ∀ i, i ∉ idx → b[i]? = a[i]? := by
  unfold assign
  rw [if_pos (by simpa using hb), rowAssign_same _ _ hl]
  refine ⟨_, rfl, foldl_set_length _ _, fun k hk => ?_, fun i hi => ?_⟩
  · have hfst : (idx.zip values).map Prod.fst = idx := List.map_fst_zip (by omega)
    have hk' : k < values.length := by omega
    have hmem : (idx[k], values[k]) ∈ idx.zip values := by
      rw [List.mem_iff_getElem]
      exact ⟨k, by simp [hk, hk'], by simp⟩
    have := foldl_set_mem (idx.zip values) a (by rw [hfst]; exact hn) _ hmem (hb _ (List.getElem_mem hk))
    rw [List.getD_eq_getElem?_getD, List.getElem?_eq_getElem hk, Option.getD_some, List.getElem?_eq_getElem hk']
    exact this
  · rw [foldl_set_other]
    rw [List.map_fst_zip (by omega)]
    exact hi

/-- C91, layout: data and reference symbols are in order, and every position of a frame is taken by exactly one of them. -/
theorem C91_layout (w : Waveform K) :
    (∀ a b, a < b → w.dataAt a < w.dataAt b) ∧ (∀ a b, a < b → w.referenceAt a < w.referenceAt b) ∧
    (∀ d < w.data, ∀ k < w.pre + w.numPilots + w.post, w.dataAt d ≠ w.referenceAt k) ∧
    ∀ i, i < w.size ↔ (∃ d < w.data, w.dataAt d = i) ∨ ∃ k < w.pre + w.numPilots + w.post, w.referenceAt k = i := by
  have hdata : ∀ d < w.data, w.dataAt d < w.pre + w.payload ∧ w.pre ≤ w.dataAt d := by
    intro d hd
    have hge : w.pre ≤ w.dataAt d := by unfold Waveform.dataAt; omega
    have := (dataAt_spec w (w.dataAt d - w.pre)).mp ⟨d, hd, by omega⟩
    omega
  refine ⟨fun a b h => dataAt_strict w h, fun a b h => ?_, fun d hd k hk heq => ?_, fun i => ?_⟩
  · have hpil : ∀ k < w.numPilots, k * (w.rate + 1) + w.rate < w.data + w.numPilots := fun k hk => pilot_lt w k hk
    unfold Waveform.referenceAt
    split
    · split
      · omega
      · split <;> omega
    · split
      · rw [if_neg (by omega)]
        split
        · have : (a - w.pre + 1) * (w.rate + 1) ≤ (b - w.pre) * (w.rate + 1) :=
            Nat.mul_le_mul_right _ (by omega)
          have e : (a - w.pre + 1) * (w.rate + 1) = (a - w.pre) * (w.rate + 1) + (w.rate + 1) := by ring
          omega
        · have := hpil (a - w.pre) (by omega)
          omega
      · rw [if_neg (by omega), if_neg (by omega)]
        omega
  · have h1 := hdata d hd
    unfold Waveform.referenceAt at heq
    split at heq
    · omega
    · split at heq
      · next hk1 hk2 =>
        have h2 := (dataAt_spec w (w.dataAt d - w.pre)).mp ⟨d, hd, by omega⟩
        apply h2.2
        rw [pilotIndices_eq, List.mem_map]
        exact ⟨k - w.pre, List.mem_range.mpr (by omega), by omega⟩
      · unfold Waveform.payload at h1
        omega
  · constructor
    · intro hi
      unfold Waveform.size at hi
      by_cases h1 : i < w.pre
      · exact Or.inr ⟨i, by omega, by rw [Waveform.referenceAt, if_pos h1]⟩
      by_cases h2 : i < w.pre + w.payload
      · by_cases h3 : i - w.pre ∈ w.pilotIndices
        · rw [pilotIndices_eq, List.mem_map] at h3
          obtain ⟨k, hk, e⟩ := h3
          rw [List.mem_range] at hk
          refine Or.inr ⟨w.pre + k, by omega, ?_⟩
          rw [Waveform.referenceAt, if_neg (by omega), if_pos (by omega), Nat.add_sub_cancel_left]
          omega
        · obtain ⟨d, hd, e⟩ := (dataAt_spec w (i - w.pre)).mpr ⟨by omega, h3⟩
          exact Or.inl ⟨d, hd, by omega⟩
      · unfold Waveform.payload at hi h2
        refine Or.inr ⟨i - w.data, by omega, ?_⟩
        rw [Waveform.referenceAt, if_neg (by omega), if_neg (by omega)]
        omega
    · rintro (⟨d, hd, rfl⟩ | ⟨k, hk, rfl⟩)
      · have := hdata d hd
        unfold Waveform.size
        omega
      · unfold Waveform.referenceAt Waveform.size
        split
        · omega
        · split
          · have := pilot_lt w (k - w.pre) (by omega)
            omega
          · unfold Waveform.payload
            omega

/-- Pilot sequences which suffice for the frame. -/
def Waveform.Sufficient (w : Waveform K) : Prop :=
  w.sequence ≠ [] ∧ (w.repeat = true ∨ w.pre + w.numPilots + w.post ≤ w.sequence.length)

theorem pilots_ok (w : Waveform K) (hw : w.Sufficient) : ∃ p, w.pilots (w.pre + w.numPilots + w.post) = .ok p ∧
    p.length = w.pre + w.numPilots + w.post ∧
    ∀ k < w.pre + w.numPilots + w.post, p[k]? = w.sequence[k % w.sequence.length]? :=
  (Modem.C59_pilot_symbols w.sequence hw.1 w.repeat _).2 hw.2

/-- What `place` does for any number of symbols. -/
theorem place_eq (w : Waveform K) (hw : w.Sufficient) (mem : ℕ → K) : ∃ a, a.length = w.size ∧
    (∀ k < w.pre + w.numPilots + w.post, a[w.referenceAt k]? = w.sequence[k % w.sequence.length]?) ∧
    ∀ symbols, w.place mem symbols = assign a ((List.range w.data).map w.dataAt) symbols := by
  obtain ⟨p, hp, hpl, hpk⟩ := pilots_ok w hw
  obtain ⟨idx, hidx, hmap⟩ := dataIndices_eq w
  have hsz : w.size = w.pre + w.payload + w.post := rfl
  let a0 := (List.range w.size).map mem
  have hl0 : a0.length = w.size := by simp [a0]
  let a1 := p.take w.pre ++ a0.drop w.pre
  have hl1 : a1.length = w.size := by simp [a1, hl0, hpl]; omega
  let a2 := a1.take (w.pre + w.payload) ++ p.drop (w.pre + w.numPilots)
  have hl2 : a2.length = w.size := by simp [a2, hl1, hpl]; omega
  obtain ⟨a3, ha3, hl3, hin, hout⟩ := assign_ok a2 (w.pilotIndices.map (w.pre + ·)) ((p.drop w.pre).take w.numPilots)
    (by
      intro i hi
      rw [pilotIndices_eq, List.map_map, List.mem_map] at hi
      obtain ⟨k, hk, rfl⟩ := hi
      have := pilot_lt w k (List.mem_range.mp hk)
      simp only [Function.comp_apply]
      omega)
    (by
      rw [pilotIndices_eq, List.map_map]
      refine List.Nodup.map_on ?_ List.nodup_range
      intro x _ y _ hxy
      simp only [Function.comp_apply] at hxy
      have : x * (w.rate + 1) = y * (w.rate + 1) := by omega
      exact Nat.eq_of_mul_eq_mul_right (by omega) this)
    (by rw [pilotIndices_eq]; simp [hpl]; omega)
  refine ⟨a3, by omega, fun k hk => ?_, fun symbols => ?_⟩
  · rw [← hpk k hk]
    unfold Waveform.referenceAt
    have hnot : ∀ i, (i < w.pre ∨ w.pre + w.payload ≤ i) → i ∉ w.pilotIndices.map (w.pre + ·) := by
      intro i hi hmem
      rw [pilotIndices_eq, List.map_map, List.mem_map] at hmem
      obtain ⟨k, hk, rfl⟩ := hmem
      have := pilot_lt w k (List.mem_range.mp hk)
      simp only [Function.comp_apply] at hi
      omega
    split
    · next h =>
      rw [hout _ (hnot _ (Or.inl h))]
      simp only [a2]
      rw [List.getElem?_append_left (by simp [hl1]; omega), List.getElem?_take_of_lt (by omega)]
      simp only [a1]
      rw [List.getElem?_append_left (by simp [hpl]; omega), List.getElem?_take_of_lt h]
    · split
      · next h1 h2 =>
        have := hin (k - w.pre) (by rw [pilotIndices_eq]; simp; omega)
        rw [pilotIndices_eq, List.map_map] at this
        rw [List.getD_eq_getElem?_getD, List.getElem?_map, List.getElem?_range (by omega), Option.map_some,
          Option.getD_some, Function.comp_apply, List.getElem?_take_of_lt (by omega), List.getElem?_drop,
          Nat.add_sub_cancel' (by omega)] at this
        rw [← this]
        congr 1
        omega
      · next h1 h2 =>
        have hpay : w.payload = w.data + w.numPilots := rfl
        rw [hout _ (hnot _ (Or.inr (by omega)))]
        simp only [a2]
        rw [List.getElem?_append_right (by simp [hl1]; omega), List.getElem?_drop]
        congr 1
        simp [hl1]
        omega
  · unfold Waveform.place
    rw [hp]
    simp only
    rw [rowAssign_same _ _ (by simp [hpl]; omega)]
    simp only
    rw [rowAssign_same _ _ (by simp [hpl]; omega)]
    simp only
    change (match assign a2 _ _ with | .error e => _ | .ok a => _) = _
    rw [ha3]
    simp only [hidx, hmap]

/-- C91, placement: the frame holds all data symbols in order, and the pilot sequence over and over at the other
positions, whatever was in memory. -/
theorem C91_place (w : Waveform K) (hw : w.Sufficient) (mem : ℕ → K) (symbols : List K) (hs : symbols.length = w.data) :
    ∃ frame, w.place mem symbols = .ok frame ∧ frame.length = w.size ∧
      (∀ d < w.data, frame[w.dataAt d]? = symbols[d]?) ∧
      ∀ k < w.pre + w.numPilots + w.post, frame[w.referenceAt k]? = w.sequence[k % w.sequence.length]? := by
  obtain ⟨a, hl, href, hplace⟩ := place_eq w hw mem
  obtain ⟨hd, -, hne, hsz⟩ := C91_layout w
  obtain ⟨b, hb, hbl, hin, hout⟩ := assign_ok a ((List.range w.data).map w.dataAt) symbols
    (by
      intro i hi
      obtain ⟨d, hd, rfl⟩ := List.mem_map.mp hi
      rw [hl, hsz]
      exact Or.inl ⟨d, List.mem_range.mp hd, rfl⟩)
    (by
      refine List.Nodup.map_on ?_ List.nodup_range
      intro x _ y _ hxy
      by_contra hne
      rcases Nat.lt_or_gt_of_ne hne with h | h
      · have := hd _ _ h; omega
      · have := hd _ _ h; omega)
    (by simpa using hs)
  refine ⟨b, by rw [hplace, hb], by omega, fun d hd => ?_, fun k hk => ?_⟩
  · have := hin d (by simpa using hd)
    rwa [List.getD_eq_getElem?_getD, List.getElem?_map, List.getElem?_range hd, Option.map_some, Option.getD_some] at this
  · rw [hout, href k hk]
    intro hmem
    obtain ⟨d, hd, e⟩ := List.mem_map.mp hmem
    exact hne d (List.mem_range.mp hd) k hk e

/-- C91, picking: of every stream of symbols or states as long as a frame, the entries at the positions of the data. -/
theorem C91_pick (w : Waveform K) (blocks : List K) (hb : blocks.length = w.size) :
    ∃ out, w.pick blocks = .ok out ∧ out.length = w.data ∧ ∀ d < w.data, out[d]? = blocks[w.dataAt d]? := by
  obtain ⟨idx, hidx, hmap⟩ := dataIndices_eq w
  obtain ⟨-, -, -, hsz⟩ := C91_layout w
  have hlt : ∀ i ∈ (List.range w.data).map w.dataAt, i < blocks.length := by
    intro i hi
    obtain ⟨d, hd, rfl⟩ := List.mem_map.mp hi
    rw [hb, hsz]
    exact Or.inl ⟨d, List.mem_range.mp hd, rfl⟩
  have hsome : ∀ i ∈ (List.range w.data).map w.dataAt, (blocks[i]?).isSome := by
    intro i hi
    simp [hlt i hi]
  refine ⟨((List.range w.data).map w.dataAt).filterMap (blocks[·]?), ?_, ?_, fun d hd => ?_⟩
  · unfold Waveform.pick
    rw [hidx]
    simp only [hmap]
    unfold select
    rw [if_pos (by simpa only [List.all_eq_true, decide_eq_true_eq] using hlt)]
  · rw [Np.filterMap_length_of_some _ _ hsome]
    simp
  · rw [Np.getElem?_filterMap_of_some _ _ hsome, List.getElem?_map, List.getElem?_range hd]
    rfl

theorem select_zipWith {L M : Type} (f : K → L → M) (a : List K) (b : List L) (i : ℕ) (h : a.length = b.length)
    (hi : i < a.length) : (List.zipWith f a b)[i]? = some (f a[i] (b[i]'(h ▸ hi))) := by
  rw [List.getElem?_zipWith, List.getElem?_eq_getElem hi, List.getElem?_eq_getElem (h ▸ hi)]

/-- C91, round trip: what is picked from a frame is what has been placed. -/
theorem C91_roundtrip (w : Waveform K) (hw : w.Sufficient) (mem : ℕ → K) (symbols : List K)
    (hs : symbols.length = w.data) : ∃ frame, w.place mem symbols = .ok frame ∧ w.pick frame = .ok symbols := by
  obtain ⟨frame, hp, hl, hd, -⟩ := C91_place w hw mem symbols hs
  obtain ⟨out, ho, hol, hget⟩ := C91_pick w frame hl
  refine ⟨frame, hp, ho.trans (congrArg _ ?_)⟩
  apply List.ext_getElem?
  intro d
  by_cases h : d < w.data
  · rw [hget d h, hd d h]
  · rw [List.getElem?_eq_none (by omega), List.getElem?_eq_none (by omega)]

/-- C91, numbers of symbols: other numbers of data symbols than configured are refused, unless it is a single one. -/
theorem C91_refuses_partial (w : Waveform K) (hw : w.Sufficient) (mem : ℕ → K) (symbols : List K)
    (hs : symbols.length ≠ w.data) (h1 : symbols.length ≠ 1) : w.place mem symbols = .error .value := by
  obtain ⟨a, hl, -, hplace⟩ := place_eq w hw mem
  obtain ⟨-, -, -, hsz⟩ := C91_layout w
  rw [hplace, assign, if_pos]
  · rw [rowAssign_other _ _ (by simpa using hs) h1]
  · rw [List.all_eq_true]
    intro i hi
    obtain ⟨d, hd, rfl⟩ := List.mem_map.mp hi
    simp only [decide_eq_true_eq]
    rw [hl, hsz]
    exact Or.inl ⟨d, List.mem_range.mp hd, rfl⟩

/-- C91, numbers of symbols: a single symbol is accepted for any number of data symbols, and repeated. -/
theorem C91_single_fails (w : Waveform K) (hw : w.Sufficient) (mem : ℕ → K) (x : K) :
    ∃ frame, w.place mem [x] = .ok frame ∧ w.pick frame = .ok (List.replicate w.data x) := by
  obtain ⟨frame, hp, hk⟩ := C91_roundtrip w hw mem (List.replicate w.data x) (by simp)
  refine ⟨frame, ?_, hk⟩
  obtain ⟨a, hl, -, hplace⟩ := place_eq w hw mem
  rw [hplace] at hp ⊢
  rw [← hp, assign, assign]
  split
  · rw [rowAssign_single, rowAssign_same _ (List.replicate w.data x) (by simp)]
    simp
  · rfl

/-- C91, pilot sequences: frames needing more reference symbols than there are, without permission to repeat them, are
refused. -/
theorem C91_insufficient (w : Waveform K) (h0 : w.sequence ≠ []) (hr : w.repeat = false)
    (hl : w.sequence.length < w.pre + w.numPilots + w.post) (mem : ℕ → K) (symbols : List K) :
    w.place mem symbols = .error .runtime := by
  have := (Modem.C59_pilot_symbols w.sequence h0 w.repeat (w.pre + w.numPilots + w.post)).1 ⟨hr, hl⟩
  unfold Waveform.place Waveform.pilots
  rw [this]

/-- C91, accepted configurations: exactly the numbers not negative, with an order there is a constellation for. -/
theorem C91_configuration (mapping : ℤ → Except PyErr (List K)) (order pre data post rate : ℤ) (guard : ℚ)
    (sequence : Option (List K)) (repeats : Bool) :
    (∃ w, Waveform.new mapping order pre data post rate guard sequence repeats = .ok w) ↔
      (∃ points, mapping order = .ok points) ∧ 0 < order ∧ order.toNat &&& (order.toNat - 1) = 0 ∧
        0 ≤ pre ∧ 0 ≤ data ∧ 0 ≤ post ∧ 0 ≤ rate ∧ 0 ≤ guard := by
  unfold Waveform.new
  cases mapping order with
  | error e => simp
  | ok points =>
    simp only [Except.ok.injEq, exists_eq', true_and]
    split_ifs <;> (simp_all; try omega)

/-! ### Estimation -/

section Estimation

variable [Field K]

theorem interp_mem (H : ℕ → K) (l : List ℕ) (hl : l.Pairwise (· < ·)) (x : ℕ) (hx : x ∈ l) :
    interp (l.map fun i => (i, H i)) x = H x := by
  induction l with
  | nil => simp at hx
  | cons a l ih =>
    match l, hl, hx, ih with
    | [], _, hx, _ =>
      obtain rfl : x = a := by simpa using hx
      rfl
    | b :: l, hl, hx, ih =>
      rw [List.pairwise_cons] at hl
      simp only [List.map_cons, interp]
      rcases List.mem_cons.mp hx with rfl | hx
      · rw [if_pos le_rfl]
      · have h1 := hl.1 x hx
        have h2 : b ≤ x := by
          rcases List.mem_cons.mp hx with rfl | hx
          · exact le_rfl
          · exact ((List.pairwise_cons.mp hl.2).1 x hx).le
        rw [if_neg (by omega), if_neg (by omega)]
        exact ih hl.2 hx

theorem interp_between (H : ℕ → K) (l : List ℕ) (hl : l.Pairwise (· < ·)) (a b x : ℕ) (ha : a ∈ l) (hb : b ∈ l)
    (hax : a < x) (hxb : x < b) (hno : ∀ c ∈ l, c ≤ a ∨ b ≤ c) :
    interp (l.map fun i => (i, H i)) x = (H b - H a) / ((b : K) - a) * ((x : K) - a) + H a := by
  induction l with
  | nil => simp at ha
  | cons c l ih =>
    match l, hl, ha, hb, hno, ih with
    | [], _, ha, hb, _, _ => simp at ha hb; omega
    | d :: l, hl, ha, hb, hno, ih =>
      rw [List.pairwise_cons] at hl
      simp only [List.map_cons, interp]
      have hcd := hl.1 d (by simp)
      have hge : ∀ y ∈ d :: l, d ≤ y := by
        intro y hy
        rcases List.mem_cons.mp hy with rfl | hy
        · exact le_rfl
        · exact ((List.pairwise_cons.mp hl.2).1 y hy).le
      have hb' : b ∈ d :: l := by
        rcases List.mem_cons.mp hb with rfl | h
        · rcases List.mem_cons.mp ha with rfl | ha
          · omega
          · have := hl.1 a ha; omega
        · exact h
      rcases List.mem_cons.mp ha with rfl | ha
      · have h1 := hge b hb'
        have h2 := hno d (by simp)
        obtain rfl : d = b := by omega
        rw [if_neg (by omega), if_pos hxb]
      · have h1 := hge a ha
        rw [if_neg (by omega), if_neg (by omega)]
        exact ih hl.2 ha hb' fun c hc => hno c (by simp [hc])

theorem interp_before (H : ℕ → K) (a : ℕ) (l : List ℕ) (x : ℕ) (h : x ≤ a) :
    interp ((a :: l).map fun i => (i, H i)) x = H a := by
  cases l with
  | nil => rfl
  | cons b l => simp only [List.map_cons, interp]; rw [if_pos h]

theorem interp_after (H : ℕ → K) (l : List ℕ) (hl : l.Pairwise (· < ·)) (a x : ℕ) (ha : a ∈ l) (hle : ∀ c ∈ l, c ≤ a)
    (h : a ≤ x) : interp (l.map fun i => (i, H i)) x = H a := by
  induction l with
  | nil => simp at ha
  | cons c l ih =>
    match l, hl, ha, hle, ih with
    | [], _, ha, _, _ =>
      obtain rfl : a = c := by simpa using ha
      rfl
    | d :: l, hl, ha, hle, ih =>
      rw [List.pairwise_cons] at hl
      simp only [List.map_cons, interp]
      have hcd := hl.1 d (by simp)
      have hda := hle d (by simp)
      rw [if_neg (by omega), if_neg (by omega)]
      refine ih hl.2 ?_ fun c hc => hle c (by simp [hc])
      rcases List.mem_cons.mp ha with rfl | ha
      · omega
      · exact ha

theorem interp_const (c : K) (l : List ℕ) (h : l ≠ []) (x : ℕ) : interp (l.map fun i => (i, c)) x = c := by
  induction l with
  | nil => simp at h
  | cons a l ih =>
    match l, ih with
    | [], _ => rfl
    | b :: l, ih =>
      simp only [List.map_cons, interp]
      split
      · rfl
      · split
        · simp
        · exact ih (by simp)

omit [Field K] in
theorem range_split {β : Type} (f : ℕ → β) (a b c : ℕ) : (List.range (a + b + c)).map f =
    (List.range a).map f ++ (List.range b).map (fun k => f (a + k)) ++ (List.range c).map (fun k => f (a + b + k)) := by
  rw [List.range_add, List.range_add]
  simp [List.map_append, Function.comp_def]

omit [Field K] in
theorem stems_eq (w : Waveform K) : w.stems = (List.range (w.pre + w.numPilots + w.post)).map w.referenceAt := by
  rw [range_split, Waveform.stems, pilotIndices_eq]
  congr 1
  · congr 1
    · conv_lhs => rw [← List.map_id (List.range w.pre)]
      refine List.map_congr_left fun k hk => ?_
      rw [List.mem_range] at hk
      simp [Waveform.referenceAt, hk]
    · rw [List.map_map]
      refine List.map_congr_left fun k hk => ?_
      rw [List.mem_range] at hk
      simp only [Function.comp_apply, Waveform.referenceAt]
      rw [if_neg (by omega), if_pos (by omega), Nat.add_sub_cancel_left]
      omega
  · refine List.map_congr_left fun k hk => ?_
    rw [List.mem_range] at hk
    simp only [Waveform.referenceAt, Waveform.payload]
    rw [if_neg (by omega), if_neg (by omega)]
    omega

omit [Field K] in
/-- The reference symbols the estimation reads from a frame. -/
theorem references_eq (w : Waveform K) (g : ℕ → K) (blocks : List K)
    (hb : blocks = (List.range w.size).map g) :
    ∃ middle, select ((blocks.drop w.pre).take w.payload) w.pilotIndices = .ok middle ∧
      blocks.take w.pre ++ middle ++ blocks.drop (w.pre + w.payload) =
        (List.range (w.pre + w.numPilots + w.post)).map fun k => g (w.referenceAt k) := by
  have hsplit := range_split g w.pre w.payload w.post
  have hb' : blocks = (List.range w.pre).map g ++ (List.range w.payload).map (fun k => g (w.pre + k)) ++
    (List.range w.post).map (fun k => g (w.pre + w.payload + k)) := by rw [hb, ← hsplit]; rfl
  have h1 : blocks.take w.pre = (List.range w.pre).map g := by
    rw [hb', List.append_assoc, List.take_left' (by simp)]
  have h2 : (blocks.drop w.pre).take w.payload = (List.range w.payload).map (fun k => g (w.pre + k)) := by
    rw [hb', List.append_assoc, List.drop_left' (by simp), List.take_left' (by simp)]
  have h3 : blocks.drop (w.pre + w.payload) = (List.range w.post).map (fun k => g (w.pre + w.payload + k)) := by
    rw [hb', List.drop_left' (by simp)]
  refine ⟨(List.range w.numPilots).map fun k => g (w.pre + (k * (w.rate + 1) + w.rate)), ?_, ?_⟩
  · rw [h2, select, if_pos]
    · rw [pilotIndices_eq, List.filterMap_map]
      congr 1
      rw [← List.filterMap_eq_map (f := fun k => g (w.pre + (k * (w.rate + 1) + w.rate)))]
      refine List.filterMap_congr fun k hk => ?_
      have := pilot_lt w k (List.mem_range.mp hk)
      simp only [Function.comp_apply]
      rw [List.getElem?_map, List.getElem?_range this]
      rfl
    · rw [List.all_eq_true, pilotIndices_eq]
      intro i hi
      obtain ⟨k, hk, rfl⟩ := List.mem_map.mp hi
      simpa using pilot_lt w k (List.mem_range.mp hk)
  · rw [h1, h3, range_split]
    congr 1
    · congr 1
      · refine List.map_congr_left fun k hk => ?_
        rw [List.mem_range] at hk
        simp [Waveform.referenceAt, hk]
      · refine List.map_congr_left fun k hk => ?_
        rw [List.mem_range] at hk
        simp only [Waveform.referenceAt]
        rw [if_neg (by omega), if_pos (by omega), Nat.add_sub_cancel_left]
        congr 1
        omega
    · refine List.map_congr_left fun k hk => ?_
      rw [List.mem_range] at hk
      simp only [Waveform.referenceAt, Waveform.payload]
      rw [if_neg (by omega), if_neg (by omega)]
      congr 1
      omega

/-- A frame the symbols of which are weighted by a channel. -/
def weighted (H : ℕ → K) (frame : List K) : List K := frame.mapIdx fun i x => H i * x

theorem estimate_eq (w : Waveform K) (hw : w.Sufficient) (h0 : ∀ s ∈ w.sequence, s ≠ 0)
    (href : 0 < w.pre + w.numPilots + w.post) (mem : ℕ → K) (symbols frame : List K)
    (hs : symbols.length = w.data) (hf : w.place mem symbols = .ok frame) (H : ℕ → K) :
    w.estimate (weighted H frame) =
      .ok ((List.range w.size).map (interp (w.stems.map fun i => (i, H i)))) := by
  obtain ⟨frame', hf', hl, -, hrefs⟩ := C91_place w hw mem symbols hs
  obtain rfl : frame' = frame := by rw [hf] at hf'; cases hf'; rfl
  obtain ⟨p, hp, hpl, hpk⟩ := pilots_ok w hw
  have hlen : (weighted H frame').length = w.size := by simp [weighted, hl]
  have hg : weighted H frame' = (List.range w.size).map fun i => H i * frame'.getD i 0 := by
    apply List.ext_getElem?
    intro i
    by_cases hi : i < w.size
    · rw [List.getElem?_map, List.getElem?_range hi, weighted, List.getElem?_mapIdx,
        List.getElem?_eq_getElem (by omega)]
      simp only [Option.map_some]
      rw [List.getD_eq_getElem?_getD, List.getElem?_eq_getElem (by omega)]
      rfl
    · rw [List.getElem?_eq_none (by omega), List.getElem?_eq_none (by simp; omega)]
  obtain ⟨middle, hm, hall⟩ := references_eq w _ _ hg
  unfold Waveform.estimate
  rw [hp]
  simp only [hm, hall]
  have hdiv : divide ((List.range (w.pre + w.numPilots + w.post)).map
      fun k => H (w.referenceAt k) * frame'.getD (w.referenceAt k) 0) p =
      .ok ((List.range (w.pre + w.numPilots + w.post)).map fun k => H (w.referenceAt k)) := by
    unfold divide
    rw [if_pos (by simp [hpl])]
    congr 1
    apply List.ext_getElem?
    intro k
    by_cases hk : k < w.pre + w.numPilots + w.post
    · have hpos : 0 < w.sequence.length := List.length_pos_iff.mpr hw.1
      have hmod : k % w.sequence.length < w.sequence.length := Nat.mod_lt _ hpos
      rw [List.getElem?_zipWith, List.getElem?_map, List.getElem?_map, List.getElem?_range hk, hpk k hk]
      simp only [Option.map_some]
      rw [List.getD_eq_getElem?_getD, hrefs k hk, List.getElem?_eq_getElem hmod]
      simp only [Option.getD_some]
      rw [mul_div_cancel_right₀]
      exact h0 _ (List.getElem_mem hmod)
    · rw [List.getElem?_eq_none (by simp; omega), List.getElem?_eq_none (by simp; omega)]
  rw [hdiv]
  simp only
  have hsl : w.stems.length = w.pre + w.numPilots + w.post := by simp [stems_eq]
  rw [if_neg (by omega), if_neg (by simp [hsl]), hlen]
  congr 3
  rw [stems_eq, List.map_map, List.zip_map']
  rfl

omit [Field K] in
theorem stems_sorted (w : Waveform K) : w.stems.Pairwise (· < ·) := by
  rw [stems_eq, List.pairwise_map]
  exact List.pairwise_lt_range.imp fun h => (C91_layout w).2.1 _ _ h

omit [Field K] in
theorem mem_stems (w : Waveform K) (i : ℕ) : i ∈ w.stems ↔ ∃ k < w.pre + w.numPilots + w.post, w.referenceAt k = i := by
  simp [stems_eq]

/-- C91, estimation: with any reference symbols, all of them different from zero, the estimated channel is exact at the
references, on the straight line between neighbouring ones, and constant before the first and after the last. -/
theorem C91_estimate (w : Waveform K) (hw : w.Sufficient) (h0 : ∀ s ∈ w.sequence, s ≠ 0)
    (R : ℕ) (hR : R + 1 = w.pre + w.numPilots + w.post) (mem : ℕ → K) (symbols frame : List K)
    (hs : symbols.length = w.data) (hf : w.place mem symbols = .ok frame) (H : ℕ → K) :
    ∃ states, w.estimate (weighted H frame) = .ok states ∧ states.length = w.size ∧
      (∀ k ≤ R, states[w.referenceAt k]? = some (H (w.referenceAt k))) ∧
      (∀ k < R, ∀ i, w.referenceAt k < i → i < w.referenceAt (k + 1) → states[i]? =
        some (H (w.referenceAt k) + (H (w.referenceAt (k + 1)) - H (w.referenceAt k)) * ((i : K) - w.referenceAt k) /
          ((w.referenceAt (k + 1) : K) - w.referenceAt k))) ∧
      (∀ i < w.referenceAt 0, states[i]? = some (H (w.referenceAt 0))) ∧
      ∀ i < w.size, w.referenceAt R < i → states[i]? = some (H (w.referenceAt R)) := by
  obtain ⟨-, hmono, -, hsz⟩ := C91_layout w
  have hle : ∀ a b, a ≤ b → w.referenceAt a ≤ w.referenceAt b := by
    intro a b h
    rcases Nat.lt_or_eq_of_le h with h | rfl
    · exact (hmono a b h).le
    · exact le_rfl
  have hin : ∀ k ≤ R, w.referenceAt k < w.size := fun k hk => (hsz _).mpr (Or.inr ⟨k, by omega, rfl⟩)
  refine ⟨_, estimate_eq w hw h0 (by omega) mem symbols frame hs hf H, by simp, fun k hk => ?_, fun k hk i h1 h2 => ?_,
    fun i hi => ?_, fun i hi h => ?_⟩
  · rw [List.getElem?_map, List.getElem?_range (hin k hk), Option.map_some,
      interp_mem H _ (stems_sorted w) _ ((mem_stems w _).mpr ⟨k, by omega, rfl⟩)]
  · have := hin (k + 1) (by omega)
    rw [List.getElem?_map, List.getElem?_range (by omega), Option.map_some,
      interp_between H _ (stems_sorted w) (w.referenceAt k) (w.referenceAt (k + 1)) i
        ((mem_stems w _).mpr ⟨k, by omega, rfl⟩) ((mem_stems w _).mpr ⟨k + 1, by omega, rfl⟩) h1 h2]
    · congr 1
      ring
    · intro c hc
      obtain ⟨l, hl, rfl⟩ := (mem_stems w _).mp hc
      rcases Nat.lt_or_ge k l with h | h
      · exact Or.inr (hle _ _ h)
      · exact Or.inl (hle _ _ h)
  · have h1 := hin 0 (by omega)
    rw [List.getElem?_map, List.getElem?_range (by omega), Option.map_some]
    have : w.stems = w.referenceAt 0 :: (List.range R).map (fun k => w.referenceAt (k + 1)) := by
      rw [stems_eq, ← hR, List.range_succ_eq_map]
      simp [Function.comp_def]
    rw [this, interp_before H _ _ _ hi.le]
  · rw [List.getElem?_map, List.getElem?_range hi, Option.map_some,
      interp_after H _ (stems_sorted w) (w.referenceAt R) i ((mem_stems w _).mpr ⟨R, by omega, rfl⟩) _ h.le]
    intro c hc
    obtain ⟨l, hl, rfl⟩ := (mem_stems w _).mp hc
    exact hle _ _ (by omega)

/-- C91, estimation: without reference symbols there is nothing to estimate from. -/
theorem C91_no_references (w : Waveform K) (h0 : w.sequence ≠ []) (h : w.pre + w.numPilots + w.post = 0)
    (blocks : List K) (hb : blocks.length = w.size) : w.estimate blocks = .error .value := by
  have hp : w.pilots 0 = .ok [] := by
    obtain ⟨p, hp, hl, -⟩ := (Modem.C59_pilot_symbols w.sequence h0 w.repeat 0).2 (Or.inr (by omega))
    rw [Waveform.pilots, hp, List.length_eq_zero_iff.mp hl]
  have hpre : w.pre = 0 := by omega
  have hpil : w.numPilots = 0 := by omega
  have hpost : w.post = 0 := by omega
  have hidx : w.pilotIndices = [] := by rw [pilotIndices_eq, hpil]; rfl
  have hstems : w.stems = [] := by rw [stems_eq, h]; rfl
  unfold Waveform.estimate
  rw [h, hp]
  simp only [hidx, hstems, hpre]
  have hd : blocks.drop (0 + w.payload) = [] := by
    apply List.drop_eq_nil_of_le
    unfold Waveform.size at hb
    omega
  rw [hd]
  simp [select, divide]

/-- Weighted frames equalized with the very weights. -/
theorem equalized (H : ℕ → K) (frame : List K) (states : List K) (n : ℕ) (hl : frame.length = n)
    (hs : states.length = n) (i : ℕ) (h : states[i]? = some (H i)) (h0 : H i ≠ 0) :
    (zeroForcing (weighted H frame) states)[i]? = frame[i]? := by
  have hi : i < states.length := by
    by_contra hc
    rw [List.getElem?_eq_none (by omega)] at h
    simp at h
  unfold zeroForcing weighted
  rw [List.getElem?_zipWith, List.getElem?_mapIdx, h, List.getElem?_eq_getElem (by omega)]
  simp only [Option.map_some]
  rw [mul_div_cancel_left₀ _ h0]

/-- C91, equalization: where the estimate of the channel is exact at all data symbols, zero forcing yields the data. -/
theorem equalize_pick (w : Waveform K) (hw : w.Sufficient) (mem : ℕ → K) (symbols frame : List K)
    (hs : symbols.length = w.data) (hf : w.place mem symbols = .ok frame) (H : ℕ → K) (states : List K)
    (hl : states.length = w.size) (h : ∀ d < w.data, states[w.dataAt d]? = some (H (w.dataAt d)))
    (h0 : ∀ d < w.data, H (w.dataAt d) ≠ 0) : w.pick (zeroForcing (weighted H frame) states) = .ok symbols := by
  obtain ⟨frame', hf', hfl, hd, -⟩ := C91_place w hw mem symbols hs
  obtain rfl : frame' = frame := by rw [hf] at hf'; cases hf'; rfl
  obtain ⟨out, ho, hol, hget⟩ := C91_pick w (zeroForcing (weighted H frame') states)
    (by simp [zeroForcing, weighted, hfl, hl])
  rw [ho]
  congr 1
  apply List.ext_getElem?
  intro d
  by_cases hdd : d < w.data
  · rw [hget d hdd, equalized H frame' states _ hfl hl _ (h d hdd) (h0 d hdd), hd d hdd]
  · rw [List.getElem?_eq_none (by omega), List.getElem?_eq_none (by omega)]

/-- C91, flat channels: a frame times any constant different from zero is estimated, equalized and picked without error. -/
theorem C91_flat (w : Waveform K) (hw : w.Sufficient) (h0 : ∀ s ∈ w.sequence, s ≠ 0)
    (href : 0 < w.pre + w.numPilots + w.post) (mem : ℕ → K) (symbols : List K) (hs : symbols.length = w.data) (c : K)
    (hc : c ≠ 0) : ∃ frame states, w.place mem symbols = .ok frame ∧ w.estimate (frame.map (c * ·)) = .ok states ∧
      states = List.replicate w.size c ∧ w.pick (zeroForcing (frame.map (c * ·)) states) = .ok symbols := by
  obtain ⟨frame, hf, hl, -⟩ := C91_place w hw mem symbols hs
  have hwt : weighted (fun _ => c) frame = frame.map (c * ·) := by
    unfold weighted
    apply List.ext_getElem?
    intro i
    simp
  have he := estimate_eq w hw h0 href mem symbols frame hs hf fun _ => c
  have hne : w.stems ≠ [] := by
    rw [stems_eq]
    intro h
    have := congrArg List.length h
    simp at this
    omega
  have hst : (List.range w.size).map (interp (w.stems.map fun i => (i, c))) = List.replicate w.size c := by
    rw [List.eq_replicate_iff]
    refine ⟨by simp, fun b hb => ?_⟩
    obtain ⟨i, -, rfl⟩ := List.mem_map.mp hb
    exact interp_const c _ hne i
  rw [hst, hwt] at he
  refine ⟨frame, _, hf, he, rfl, ?_⟩
  rw [← hwt]
  refine equalize_pick w hw mem symbols frame hs hf _ _ (by simp) (fun d hd => ?_) (fun _ _ => hc)
  rw [List.getElem?_replicate, if_pos]
  exact ((C91_layout w).2.2.2 _).mpr (Or.inl ⟨d, hd, rfl⟩)

/-- C91, drifting channels: with references at both ends of the frame, so is a frame weighted along a straight line. -/
theorem C91_drift [CharZero K] (w : Waveform K) (hw : w.Sufficient) (h0 : ∀ s ∈ w.sequence, s ≠ 0) (hpre : 0 < w.pre)
    (hpost : 0 < w.post) (mem : ℕ → K) (symbols : List K) (hs : symbols.length = w.data) (u v : K)
    (hne : ∀ i < w.size, u + v * (i : K) ≠ 0) :
    ∃ frame states, w.place mem symbols = .ok frame ∧ w.estimate (weighted (fun i => u + v * (i : K)) frame) = .ok states ∧
      states = (List.range w.size).map (fun (i : ℕ) => u + v * (i : K)) ∧
      w.pick (zeroForcing (weighted (fun i => u + v * (i : K)) frame) states) = .ok symbols := by
  obtain ⟨frame, hf, hl, -⟩ := C91_place w hw mem symbols hs
  obtain ⟨-, hmono, -, hsz⟩ := C91_layout w
  set H : ℕ → K := fun i => u + v * (i : K) with hH
  obtain ⟨states, he, hlen, href, hbetween, -, -⟩ := C91_estimate w hw h0 (w.pre + w.numPilots + w.post - 1)
    (by omega) mem symbols frame hs hf H
  have hex : ∀ i < w.size, states[i]? = some (H i) := by
    intro i hi
    have hlast : w.referenceAt (w.pre + w.numPilots + w.post - 1) = w.size - 1 := by
      unfold Waveform.referenceAt Waveform.size Waveform.payload
      rw [if_neg (by omega), if_neg (by omega)]
      omega
    have hfirst : w.referenceAt 0 = 0 := by unfold Waveform.referenceAt; rw [if_pos hpre]
    -- the last reference not behind `i`
    have hex : ∃ k ≤ w.pre + w.numPilots + w.post - 1, w.referenceAt k ≤ i ∧
        (k = w.pre + w.numPilots + w.post - 1 ∨ i < w.referenceAt (k + 1)) := by
      have : ∀ n ≤ w.pre + w.numPilots + w.post - 1, (∃ k ≤ w.pre + w.numPilots + w.post - 1, w.referenceAt k ≤ i ∧
          (k = w.pre + w.numPilots + w.post - 1 ∨ i < w.referenceAt (k + 1))) ∨ w.referenceAt n ≤ i := by
        intro n
        induction n with
        | zero => intro _; exact Or.inr (by omega)
        | succ n ih =>
          intro hn
          rcases ih (by omega) with h | h
          · exact Or.inl h
          · by_cases hc : w.referenceAt (n + 1) ≤ i
            · exact Or.inr hc
            · exact Or.inl ⟨n, by omega, h, Or.inr (by omega)⟩
      rcases this _ le_rfl with h | h
      · exact h
      · exact ⟨_, le_rfl, h, Or.inl rfl⟩
    obtain ⟨k, hk, hki, hor⟩ := hex
    rcases Nat.lt_or_eq_of_le hki with hlt | heq
    · rcases hor with rfl | hlt2
      · omega
      · have hk' : k < w.pre + w.numPilots + w.post - 1 := by
          by_contra hc
          obtain rfl : k = w.pre + w.numPilots + w.post - 1 := by omega
          omega
        rw [hbetween k hk' i hlt hlt2]
        congr 1
        have hne : ((w.referenceAt (k + 1) : K) - w.referenceAt k) ≠ 0 := by
          rw [sub_ne_zero]
          have := hmono k (k + 1) (by omega)
          exact_mod_cast (by omega : w.referenceAt (k + 1) ≠ w.referenceAt k)
        simp only [hH]
        field_simp
        ring
    · rw [← heq]
      exact href k hk
  have hst : states = (List.range w.size).map H := by
    apply List.ext_getElem?
    intro i
    by_cases hi : i < w.size
    · rw [hex i hi, List.getElem?_map, List.getElem?_range hi]
      rfl
    · rw [List.getElem?_eq_none (by omega), List.getElem?_eq_none (by simp; omega)]
  refine ⟨frame, states, hf, he, hst, ?_⟩
  refine equalize_pick w hw mem symbols frame hs hf H states hlen (fun d hd => ?_) (fun d hd => ?_)
  · exact hex _ ((hsz _).mpr (Or.inl ⟨d, hd, rfl⟩))
  · exact hne _ ((hsz _).mpr (Or.inl ⟨d, hd, rfl⟩))

/-- C91, minimum mean square equalization: of a single stream it is zero forcing, whatever the noise; several streams are
refused exactly if there are more transmitted than received ones. -/
theorem C91_mmse (tx rx : ℕ) (blocks states : List K) (pinv : List K) :
    (tx = 1 → rx = 1 → minimumMeanSquare tx rx blocks states (.ok pinv) = .ok (zeroForcing blocks states)) ∧
    (0 < tx → 0 < rx → (minimumMeanSquare tx rx blocks states (.ok pinv) = .error .runtime ↔ rx < tx)) := by
  unfold minimumMeanSquare zeroForcing
  refine ⟨fun h1 h2 => by rw [if_pos (by omega)]; simp, fun h1 h2 => ?_⟩
  split
  · simp; omega
  · split
    · simp; omega
    · simp; omega

end Estimation

/-! ### Storage -/

/-- C91, storage: a restored waveform has the stored numbers; it is the stored waveform if that has the default pilot
sequence and repeats it. -/
theorem C91_store_partial (mapping : ℤ → Except PyErr (List K)) (order pre data post rate : ℤ) (guard : ℚ)
    (sequence : Option (List K)) (repeats : Bool) (w : Waveform K)
    (hw : Waveform.new mapping order pre data post rate guard sequence repeats = .ok w) :
    ∃ r, w.serialize.deserialize mapping = .ok r ∧ r.order = w.order ∧ r.pre = w.pre ∧ r.data = w.data ∧
      r.post = w.post ∧ r.rate = w.rate ∧ r.guard = w.guard ∧
      (sequence = none → repeats = true → r = w) := by
  unfold Waveform.new at hw
  cases hm : mapping order with
  | error e => simp [hm] at hw
  | ok points =>
    simp only [hm] at hw
    split_ifs at hw with h1 h2 h3 h4 h5 h6
    cases hw
    refine ⟨⟨order, pre.toNat, data.toNat, post.toNat, rate.toNat, guard, points, true⟩, ?_, ?_⟩
    · unfold Stored.deserialize Waveform.serialize Waveform.new
      simp only [hm, Int.toNat_natCast, Option.getD_none]
      rw [if_neg h1, if_neg (by omega), if_neg (by omega), if_neg (by omega), if_neg (by omega), if_neg h6]
    · simp only [true_and]
      rintro rfl rfl
      rfl

/-- C91, storage: restored waveforms have the default pilot sequence and repeat it, however they were configured. -/
theorem C91_store_fails (mapping : ℤ → Except PyErr (List K)) (order pre data post rate : ℤ) (guard : ℚ)
    (points sequence : List K) (repeats : Bool) (w : Waveform K) (hm : mapping order = .ok points)
    (hw : Waveform.new mapping order pre data post rate guard (some sequence) repeats = .ok w) :
    w.sequence = sequence ∧ w.repeat = repeats ∧
      ∃ r, w.serialize.deserialize mapping = .ok r ∧ r.sequence = points ∧ r.repeat = true := by
  unfold Waveform.new at hw
  simp only [hm] at hw
  split_ifs at hw with h1 h2 h3 h4 h5 h6
  cases hw
  refine ⟨rfl, rfl, ⟨order, pre.toNat, data.toNat, post.toNat, rate.toNat, guard, points, true⟩, ?_, rfl, rfl⟩
  unfold Stored.deserialize Waveform.serialize Waveform.new
  simp only [hm, Int.toNat_natCast, Option.getD_none]
  rw [if_neg h1, if_neg (by omega), if_neg (by omega), if_neg (by omega), if_neg (by omega), if_neg h6]

/-- C91, orders: setting the modulation order, be it to what it is, replaces the pilot sequence by the default one. -/
theorem C91_order_fails (mapping : ℤ → Except PyErr (List K)) (w : Waveform K) (order : ℤ) (points : List K)
    (hm : mapping order = .ok points) : (w.setOrder mapping order).2.sequence = points := by
  unfold Waveform.setOrder
  simp only [hm]
  split <;> rfl

/-! ### Examples -/

/-- Binary phase shift keying only. -/
def bpsk : ℤ → Except PyErr (List ℚ) := fun order => if order = 2 then .ok [1, -1] else .error .value

def example1 : Waveform ℚ := ⟨2, 2, 7, 1, 2, 0, [1, -1, 3], true⟩

example : Waveform.new bpsk 2 2 7 1 2 0 (some [1, -1, 3]) true = .ok example1 := by decide +kernel
example : example1.Sufficient := ⟨by decide, Or.inl rfl⟩
example : ∀ s ∈ example1.sequence, s ≠ 0 := by decide +kernel
example : example1.place (fun _ => 77) [10, 20, 30, 40, 50, 60, 70] =
    .ok [1, -1, 10, 20, 3, 30, 40, 1, 50, 60, 70, -1] := by decide +kernel
example : example1.estimate (weighted (fun i => 5 + i) [1, -1, 10, 20, 3, 30, 40, 1, 50, 60, 70, -1]) =
    .ok [5, 6, 7, 8, 9, 10, 11, 12, 13, 14, 15, 16] := by decide +kernel
example : (Waveform.mk 2 0 3 0 0 0 [1, -1] true : Waveform ℚ).estimate [1, 2, 3] = .error .value := by decide +kernel

end Verif.SingleCarrier
