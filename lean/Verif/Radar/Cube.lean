import Verif.Np
import Verif.Io.Hdf
import Mathlib.Algebra.Order.Field.Basic
import Mathlib.Data.Rat.Defs
import Mathlib.Algebra.Order.Ring.Rat
import Mathlib.Data.List.Basic
import Mathlib.Data.List.MinMax
import Mathlib.Tactic.Linarith
import Mathlib.Tactic.FieldSimp
import Mathlib.Tactic.Common

/-!
# C42: radar cubes

`radar/cube.py` 193-455.  Numbers are elements of an ordered field instead of floating point numbers.
-/

namespace Verif.Radar

variable {K : Type} [Field K] [LinearOrder K] [IsStrictOrderedRing K]

/-- A numpy array: shape and values by index (row-major index lists). -/
structure Arr (K : Type) where
  shape : List Nat
  data : List Nat → K

/-- `RadarCube`: the data with its three dimensions, rows of `angle_bins`, the other bins and the
carrier frequency. -/
structure Cube (K : Type) where
  na : Nat
  nb : Nat
  nc : Nat
  data : Nat × Nat × Nat → K
  angle : List (List K)
  doppler : List K
  range : List K
  fc : K

/-- `RadarCube.__init__`, `radar/cube.py` 248-284.  Only the number of rows of the angle bins is
checked. -/
def mkCube (a : Arr K) (angle : Option (List (List K))) (doppler range : Option (List K)) (fc : K) :
    Except PyErr (Cube K) :=
  match a.shape with
  | [na, nb, nc] =>
    match (match angle with
      | some l => some l
      | none => if na = 1 then some [[0, 0]] else none) with
    | none => .error .value
    | some angle => match (match doppler with
        | some l => some l
        | none => if nb = 1 then some [0] else none) with
      | none => .error .value
      | some doppler =>
        let range := match range with
          | some l => l
          | none => (List.range nc).map (fun i : Nat => (i : K))
        if na ≠ angle.length then .error .value
        else if nb ≠ doppler.length then .error .value
        else if nc ≠ range.length then .error .value
        else if fc < 0 then .error .value
        else .ok ⟨na, nb, nc, fun p => a.data [p.1, p.2.1, p.2.2], angle, doppler, range, fc⟩
  | _ => .error .value

/-- Indices of the cube's bins in the order of the array. -/
def Cube.idxs (c : Cube K) : List (Nat × Nat × Nat) :=
  (List.range c.na).flatMap fun i => (List.range c.nb).flatMap fun j =>
    (List.range c.nc).map fun k => (i, j, k)

omit [Field K] [LinearOrder K] [IsStrictOrderedRing K] in
theorem mem_idxs (c : Cube K) (i j k : Nat) :
    (i, j, k) ∈ c.idxs ↔ i < c.na ∧ j < c.nb ∧ k < c.nc := by
  simp [Cube.idxs]

/-- Values of the cube in the order of the array. -/
def Cube.values (c : Cube K) : List K := c.idxs.map c.data

/-- `data.max()`; a `ValueError` for empty arrays. -/
def maxOf : List K → Except PyErr K
  | [] => .error .value
  | x :: l => .ok (l.foldl max x)

/-- `data.min()`. -/
def minOf : List K → Except PyErr K
  | [] => .error .value
  | x :: l => .ok (l.foldl min x)

omit [Field K] [IsStrictOrderedRing K] in
theorem foldl_max_spec (l : List K) (x : K) :
    (l.foldl max x = x ∨ l.foldl max x ∈ l) ∧ x ≤ l.foldl max x ∧ ∀ y ∈ l, y ≤ l.foldl max x := by
  induction l generalizing x with
  | nil => simp
  | cons y l ih =>
    obtain ⟨h1, h2, h3⟩ := ih (max x y)
    simp only [List.foldl_cons, List.mem_cons]
    refine ⟨?_, (le_max_left x y).trans h2, ?_⟩
    · rcases h1 with h | h
      · rw [h]
        rcases max_choice x y with e | e
        · left; exact e
        · right; left; exact e
      · right; right; exact h
    · rintro z (rfl | hz)
      · exact (le_max_right x z).trans h2
      · exact h3 z hz

omit [Field K] [IsStrictOrderedRing K] in
theorem foldl_min_spec (l : List K) (x : K) :
    (l.foldl min x = x ∨ l.foldl min x ∈ l) ∧ l.foldl min x ≤ x ∧ ∀ y ∈ l, l.foldl min x ≤ y := by
  induction l generalizing x with
  | nil => simp
  | cons y l ih =>
    obtain ⟨h1, h2, h3⟩ := ih (min x y)
    simp only [List.foldl_cons, List.mem_cons]
    refine ⟨?_, h2.trans (min_le_left x y), ?_⟩
    · rcases h1 with h | h
      · rw [h]
        rcases min_choice x y with e | e
        · left; exact e
        · right; left; exact e
      · right; right; exact h
    · rintro z (rfl | hz)
      · exact h2.trans (min_le_right x z)
      · exact h3 z hz

omit [Field K] [IsStrictOrderedRing K] in
theorem maxOf_spec (l : List K) (m : K) : maxOf l = .ok m ↔ m ∈ l ∧ ∀ y ∈ l, y ≤ m := by
  cases l with
  | nil => simp [maxOf]
  | cons x l =>
    obtain ⟨h1, h2, h3⟩ := foldl_max_spec l x
    simp only [maxOf, Except.ok.injEq, List.mem_cons]
    constructor
    · rintro rfl
      refine ⟨h1, ?_⟩
      rintro y (rfl | hy)
      · exact h2
      · exact h3 y hy
    · rintro ⟨hm, hall⟩
      apply le_antisymm
      · rcases h1 with h | h
        · rw [h]; exact hall x (Or.inl rfl)
        · exact hall _ (Or.inr h)
      · rcases hm with rfl | hm
        · exact h2
        · exact h3 m hm

omit [Field K] [IsStrictOrderedRing K] in
theorem minOf_spec (l : List K) (m : K) : minOf l = .ok m ↔ m ∈ l ∧ ∀ y ∈ l, m ≤ y := by
  cases l with
  | nil => simp [minOf]
  | cons x l =>
    obtain ⟨h1, h2, h3⟩ := foldl_min_spec l x
    simp only [minOf, Except.ok.injEq, List.mem_cons]
    constructor
    · rintro rfl
      refine ⟨h1, ?_⟩
      rintro y (rfl | hy)
      · exact h2
      · exact h3 y hy
    · rintro ⟨hm, hall⟩
      apply le_antisymm
      · rcases hm with rfl | hm
        · exact h2
        · exact h3 m hm
      · rcases h1 with h | h
        · rw [h]; exact hall x (Or.inl rfl)
        · exact hall _ (Or.inr h)

/-- `normalize_power`, `radar/cube.py` 433-436.  Division by zero, which yields `nan` and `inf` in
numpy, is not modelled. -/
def normalizePower (c : Cube K) : Except PyErr (Cube K) :=
  match maxOf c.values with
  | .error e => .error e
  | .ok m => .ok { c with data := fun p => c.data p / m }

/-! ### Properties -/

/-- **C42** (construction): a cube is constructed iff the data is three-dimensional, there is a row of
angle bins per first index, a Doppler bin per second and a range bin per third, where missing angle and
Doppler bins are allowed for single-bin dimensions and missing range bins always, and the carrier
frequency is not negative. -/
theorem C42_construction_iff (a : Arr K) (angle : Option (List (List K))) (doppler range : Option (List K))
    (fc : K) :
    (∃ c, mkCube a angle doppler range fc = .ok c) ↔
      ∃ na nb nc, a.shape = [na, nb, nc] ∧
        (match angle with
          | some l => l.length = na
          | none => na = 1) ∧
        (match doppler with
          | some l => l.length = nb
          | none => nb = 1) ∧
        (match range with
          | some l => l.length = nc
          | none => True) ∧ 0 ≤ fc := by
  unfold mkCube
  split
  · rename_i na nb nc hs
    simp only [hs, List.cons.injEq, and_true]
    cases angle with
    | none =>
      by_cases h1 : na = 1
      · cases doppler with
        | none =>
          by_cases h2 : nb = 1
          · cases range with
            | none => by_cases hf : fc < 0 <;> simp [h1, h2, hf] ; exact not_lt.mp hf
            | some r =>
              by_cases h3 : nc = r.length
              · by_cases hf : fc < 0
                · simp [h1, h2, h3, hf]
                · simp [h1, h2, h3, hf, not_lt.mp hf]
              · simp [h1, h2, h3, Ne.symm h3]
          · simp [h1, h2]
        | some d =>
          by_cases h2 : nb = d.length
          · cases range with
            | none => by_cases hf : fc < 0 <;> simp [h1, h2, hf] ; exact not_lt.mp hf
            | some r =>
              by_cases h3 : nc = r.length
              · by_cases hf : fc < 0
                · simp [h1, h2, h3, hf]
                · simp [h1, h2, h3, hf, not_lt.mp hf]
              · simp [h1, h2, h3, Ne.symm h3]
          · simp [h1, h2, Ne.symm h2]
      · simp [h1]
    | some g =>
      by_cases h1 : na = g.length
      · cases doppler with
        | none =>
          by_cases h2 : nb = 1
          · cases range with
            | none => by_cases hf : fc < 0 <;> simp [h1, h2, hf] ; exact not_lt.mp hf
            | some r =>
              by_cases h3 : nc = r.length
              · by_cases hf : fc < 0
                · simp [h1, h2, h3, hf]
                · simp [h1, h2, h3, hf, not_lt.mp hf]
              · simp [h1, h2, h3, Ne.symm h3]
          · simp [h1, h2]
        | some d =>
          by_cases h2 : nb = d.length
          · cases range with
            | none => by_cases hf : fc < 0 <;> simp [h1, h2, hf] ; exact not_lt.mp hf
            | some r =>
              by_cases h3 : nc = r.length
              · by_cases hf : fc < 0
                · simp [h1, h2, h3, hf]
                · simp [h1, h2, h3, hf, not_lt.mp hf]
              · simp [h1, h2, h3, Ne.symm h3]
          · simp [h1, h2, Ne.symm h2]
      · cases doppler with
        | none => by_cases h2 : nb = 1 <;> simp [h1, h2, Ne.symm h1]
        | some d => simp [h1, Ne.symm h1]
  · rename_i hs
    constructor
    · rintro ⟨c, hc⟩; cases hc
    · rintro ⟨na, nb, nc, h, _⟩
      exact absurd h (hs na nb nc)

/-- The constructed cube holds what was passed, and has as many bins as data. -/
theorem C42_construction_content (a : Arr K) (angle : Option (List (List K)))
    (doppler range : Option (List K)) (fc : K) (c : Cube K) (h : mkCube a angle doppler range fc = .ok c) :
    a.shape = [c.na, c.nb, c.nc] ∧ (∀ i j k, c.data (i, j, k) = a.data [i, j, k]) ∧
    c.angle.length = c.na ∧ c.doppler.length = c.nb ∧ c.range.length = c.nc ∧ c.fc = fc ∧
    (∀ l, angle = some l → c.angle = l) ∧ (∀ l, doppler = some l → c.doppler = l) ∧
    (∀ l, range = some l → c.range = l) := by
  unfold mkCube at h
  split at h
  · rename_i na nb nc hs
    split at h
    · cases h
    rename_i g hg
    split at h
    · cases h
    rename_i d hd
    by_cases e1 : na ≠ g.length
    · rw [if_pos e1] at h; cases h
    rw [if_neg e1] at h
    by_cases e2 : nb ≠ d.length
    · rw [if_pos e2] at h; cases h
    rw [if_neg e2] at h
    by_cases e3 : nc ≠ (match range with
      | some l => l
      | none => (List.range nc).map (fun i : Nat => (i : K))).length
    · rw [if_pos e3] at h; cases h
    rw [if_neg e3] at h
    by_cases e4 : fc < 0
    · rw [if_pos e4] at h; cases h
    rw [if_neg e4] at h
    cases h
    refine ⟨hs, fun _ _ _ => rfl, (not_not.mp e1).symm, (not_not.mp e2).symm, (not_not.mp e3).symm, rfl,
      ?_, ?_, ?_⟩
    · rintro l rfl; simpa using hg.symm
    · rintro l rfl; simpa using hd.symm
    · rintro l rfl; rfl
  · cases h

/-- **C42** (normalisation): if the largest power is positive, the largest power of the normalised cube
is one, and all powers keep their ratios; nothing else changes. -/
theorem C42_normalize (c : Cube K) (m : K) (hm : maxOf c.values = .ok m) (hpos : 0 < m) :
    ∃ c', normalizePower c = .ok c' ∧ maxOf c'.values = .ok 1 ∧ (∀ p, c'.data p * m = c.data p) ∧
      c'.na = c.na ∧ c'.nb = c.nb ∧ c'.nc = c.nc ∧ c'.angle = c.angle ∧ c'.doppler = c.doppler ∧
      c'.range = c.range ∧ c'.fc = c.fc := by
  unfold normalizePower
  rw [hm]
  refine ⟨_, rfl, ?_, ?_, rfl, rfl, rfl, rfl, rfl, rfl, rfl⟩
  · rw [maxOf_spec] at hm ⊢
    obtain ⟨h1, h2⟩ := hm
    simp only [Cube.values, List.mem_map] at h1 h2 ⊢
    constructor
    · obtain ⟨p, hp, e⟩ := h1
      exact ⟨p, hp, by rw [e, div_self hpos.ne']⟩
    · rintro y ⟨p, hp, rfl⟩
      rw [div_le_one hpos]
      exact h2 _ ⟨p, hp, rfl⟩
  · intro p
    exact div_mul_cancel₀ _ hpos.ne'

/-- **C42** fails for cubes with negative powers only: normalisation makes the smallest of them the
largest, at least one. -/
theorem C42_negative_fails (c c' : Cube K) (m lo : K) (hm : maxOf c.values = .ok m)
    (hlo : minOf c.values = .ok lo) (hneg : m < 0) (h : normalizePower c = .ok c') :
    maxOf c'.values = .ok (lo / m) ∧ 1 ≤ lo / m := by
  unfold normalizePower at h
  rw [hm] at h
  cases h
  rw [maxOf_spec] at hm ⊢
  rw [minOf_spec] at hlo
  obtain ⟨h1, h2⟩ := hm
  obtain ⟨h3, h4⟩ := hlo
  refine ⟨?_, ?_⟩
  · simp only [Cube.values, List.mem_map] at h3 h4 ⊢
    constructor
    · obtain ⟨p, hp, e⟩ := h3
      exact ⟨p, hp, by rw [e]⟩
    · rintro y ⟨p, hp, rfl⟩
      exact div_le_div_of_nonpos_of_le hneg.le (h4 _ ⟨p, hp, rfl⟩)
  · rw [le_div_iff_of_neg hneg, one_mul]
    exact h4 m h1

/-- **C42** fails for the second dimension of the angle bins: any number of columns is accepted. -/
theorem C42_columns_fails (cols : List (List K)) (a : Arr K) (nb nc : Nat)
    (ha : a.shape = [cols.length, nb, nc]) (d r : List K) (hd : d.length = nb) (hr : r.length = nc) :
    ∃ c, mkCube a (some cols) (some d) (some r) 0 = .ok c ∧ c.angle = cols := by
  obtain ⟨c, hc⟩ := (C42_construction_iff a (some cols) (some d) (some r) 0).mpr
    ⟨_, _, _, ha, rfl, hd, hr, le_rfl⟩
  exact ⟨c, hc, (C42_construction_content _ _ _ _ _ _ hc).2.2.2.2.2.2.1 _ rfl⟩

/-! ### Serialization -/

open Verif.Io

/-- A cube as an object, `radar/cube.py` 438-444: addresses and contents of the four arrays.  Contents
of arrays are opaque here. -/
def cubeObj {V A : Type} (a0 a1 a2 a3 : Nat) (val : Nat → A) (fc : V) : Obj V A Nat :=
  ⟨0, [("data", .arr a0 (val a0)), ("angle_bins", .arr a1 (val a1)), ("doppler_bins", .arr a2 (val a2)),
    ("range_bins", .arr a3 (val a3)), ("carrier_frequency", .scalar fc)]⟩

/-- Fields read by `Deserialize`, `radar/cube.py` 446-455. -/
def cubeSchema (_ : Nat) : List (String × Kind) :=
  [("data", .arr), ("angle_bins", .arr), ("doppler_bins", .arr), ("range_bins", .arr),
    ("carrier_frequency", .scalar)]

/-- **C42** (serialization): the arrays and the carrier frequency read back from the file are those of
the cube written, and arrays shared between bins stay shared. -/
theorem C42_serialization {V A : Type} (a0 a1 a2 a3 : Nat) (val : Nat → A) (fc : V) (R : Nat) :
    ∃ w s b0 b1 b2 b3, writeRoot (fun _ => cubeObj a0 a1 a2 a3 val fc) (fun _ => true) R 0 = .ok w ∧
      readRoot w.file cubeSchema (fun _ => true) R 0 = .ok (s,
        [("data", .arr b0 (val a0)), ("angle_bins", .arr b1 (val a1)), ("doppler_bins", .arr b2 (val a2)),
          ("range_bins", .arr b3 (val a3)), ("carrier_frequency", .scalar fc)]) ∧
      (b0 = b1 ↔ a0 = a1) ∧ (b1 = b2 ↔ a1 = a2) ∧ (b2 = b3 ↔ a2 = a3) ∧ (b0 = b2 ↔ a0 = a2) ∧
      (b0 = b3 ↔ a0 = a3) ∧ (b1 = b3 ↔ a1 = a3) := by
  have snd : Sound (fun _ => cubeObj a0 a1 a2 a3 val fc) cubeSchema (fun _ => 0) val := by
    refine ⟨fun _ => ?_, fun _ => ?_, ?_, ?_⟩
    · simp [cubeObj]
    · simp [cubeObj, cubeSchema, Fits]
    · intro r f hf r' hr
      simp only [cubeObj, List.mem_cons, List.not_mem_nil, or_false] at hf
      rcases hf with rfl | rfl | rfl | rfl | rfl <;> exact absurd hr (by simp [Refers])
    · intro r f hf a v hv
      simp only [cubeObj, List.mem_cons, List.not_mem_nil, or_false] at hf
      rcases hf with rfl | rfl | rfl | rfl | rfl <;> cases hv <;> rfl
  have hw : ∃ w, writeRoot (fun _ => cubeObj a0 a1 a2 a3 val fc) (fun _ => true) R 0 = .ok w := by
    exact ⟨_, rfl⟩
  obtain ⟨w, hw⟩ := hw
  obtain ⟨s, fs, φ, ψ, h1, _, h3, h4, _, _⟩ := C32_round_trip_partial snd (fun _ => true) R 0 w
    (by simp [cubeObj]) hw
  have inj : ∀ {a b n m : Nat}, ψ a = some n → ψ b = some m → (n = m ↔ a = b) := by
    intro a b n m ha hb
    constructor
    · rintro rfl; exact h3 _ _ _ ha hb
    · rintro rfl; rw [ha] at hb; exact Option.some.inj hb
  have arr : ∀ {name : String} {a : Nat} {g : String × Field V A},
      FieldCopy φ ψ (name, .arr a (val a)) g → ∃ n, g = (name, .arr n (val a)) ∧ ψ a = some n := by
    rintro name a ⟨gn, gf⟩ ⟨e1, e2⟩
    cases gf with
    | arr n v =>
      obtain ⟨e2, e3⟩ := e2
      dsimp only at e1
      subst e1 e3
      exact ⟨n, rfl, e2⟩
    | _ => exact absurd e2 (by simp)
  simp only [cubeObj] at h4
  cases h4 with
  | cons f0 h4 =>
  cases h4 with
  | cons f1 h4 =>
  cases h4 with
  | cons f2 h4 =>
  cases h4 with
  | cons f3 h4 =>
  cases h4 with
  | cons f4 h4 =>
  cases h4
  obtain ⟨b0, rfl, e0⟩ := arr f0
  obtain ⟨b1, rfl, e1⟩ := arr f1
  obtain ⟨b2, rfl, e2⟩ := arr f2
  obtain ⟨b3, rfl, e3⟩ := arr f3
  rename_i g4
  obtain ⟨gn, gf⟩ := g4
  obtain ⟨e4, e5⟩ := f4
  cases gf with
  | scalar v =>
    dsimp only at e4 e5
    subst e4 e5
    exact ⟨w, s, b0, b1, b2, b3, hw, h1, inj e0 e1, inj e1 e2, inj e2 e3, inj e0 e2, inj e0 e3, inj e1 e3⟩
  | _ => exact absurd e5 (by simp)

/-- **C42** (serialization): constructing a cube again from its own arrays, as `Deserialize` does, gives
the same cube. -/
theorem C42_reconstruct (c : Cube K) (h1 : c.angle.length = c.na) (h2 : c.doppler.length = c.nb)
    (h3 : c.range.length = c.nc) (h4 : 0 ≤ c.fc) :
    mkCube ⟨[c.na, c.nb, c.nc], fun l => c.data (l.getD 0 0, l.getD 1 0, l.getD 2 0)⟩ (some c.angle)
      (some c.doppler) (some c.range) c.fc = .ok c := by
  unfold mkCube
  simp only [h1, h2, h3, ne_eq, not_true_eq_false, if_false]
  rw [if_neg (not_lt.mpr h4)]
  rfl

/-- A cube of two angles, one Doppler bin and three ranges. -/
def demoCube : Cube ℚ where
  na := 2
  nb := 1
  nc := 3
  data := fun p => if p = (1, 0, 1) then 8 else if p = (0, 0, 0) then 4 else 2
  angle := [[0, 0], [1, 2]]
  doppler := [0]
  range := [0, 10, 20]
  fc := 1

example : (maxOf demoCube.values).toOption = some 8 := by decide +kernel
example : ((mkCube ⟨[2, 1, 3], fun _ => (1 : ℚ)⟩ (some [[0, 0], [1, 2]]) none none 1).toOption).map (·.range) =
    some [0, 1, 2] := by decide +kernel

end Verif.Radar
