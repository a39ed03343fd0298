import Mathlib.Data.List.Basic
import Mathlib.Tactic.Ring
import Mathlib.Tactic.Linarith

/-!
# Small numpy vocabulary

Row-major reshape, transpose and flatten on flat lists, and the Python exceptions as values.
These helpers stand for the numpy functions of the same name; they are shared by several areas.
-/

namespace Verif

/-- Python exceptions as values (the kinds raised by the modelled code). -/
inductive PyErr where
  | value | runtime | type | index | notImplemented | key | recursion | zeroDivision | attribute
  | overflow
  deriving DecidableEq, Repr

namespace Np

/-- `a.reshape((r, c))` of a flat array: row-major rows, `ValueError` on a size mismatch. -/
def reshape {α : Type _} (r c : Nat) (xs : List α) : Except PyErr (List (List α)) :=
  if xs.length = r * c then
    .ok ((List.range r).map fun i => (xs.drop (i * c)).take c)
  else .error .value

/-- `a.T` of a matrix given by its rows, with `c` columns. -/
def transpose {α : Type _} (c : Nat) (rows : List (List α)) : List (List α) :=
  (List.range c).map fun j => rows.filterMap fun row => row[j]?

/-- `a.flatten()` (C order). -/
def flatten {α : Type _} (rows : List (List α)) : List α := rows.flatten

/-- `np.tile(a, m)` of a one-dimensional array. -/
def tile {α : Type _} (m : Nat) (xs : List α) : List α := (List.replicate m xs).flatten

/-! ### Lemmas -/

theorem length_flatten_uniform {α : Type _} (c : Nat) (L : List (List α))
    (h : ∀ l ∈ L, l.length = c) : L.flatten.length = L.length * c := by
  induction L with
  | nil => simp
  | cons a L ih =>
    have ha := h a (by simp)
    have := ih (fun l hl => h l (by simp [hl]))
    simp [this, ha, Nat.add_mul, Nat.add_comm]

/-- Element `i*c+j` of the concatenation of rows of length `c` is element `j` of row `i`. -/
theorem getElem?_flatten_uniform {α : Type _} (c : Nat) (L : List (List α))
    (h : ∀ l ∈ L, l.length = c) (i j : Nat) (hj : j < c) :
    L.flatten[i * c + j]? = (L[i]?).bind (fun l => l[j]?) := by
  induction L generalizing i with
  | nil => simp
  | cons a L ih =>
    have ha := h a (by simp)
    cases i with
    | zero =>
      simp only [Nat.zero_mul, Nat.zero_add, List.flatten_cons]
      rw [List.getElem?_append_left (by omega)]
      simp
    | succ i =>
      have e : (i + 1) * c + j = a.length + (i * c + j) := by rw [ha]; ring
      rw [List.flatten_cons, e, List.getElem?_append_right (by omega)]
      simp only [Nat.add_sub_cancel_left, List.getElem?_cons_succ]
      exact ih (fun l hl => h l (by simp [hl])) i

theorem getElem?_take_drop {α : Type _} (xs : List α) (a c j : Nat) (hj : j < c) :
    ((xs.drop a).take c)[j]? = xs[a + j]? := by
  rw [List.getElem?_take_of_lt hj, List.getElem?_drop]

theorem filterMap_length_of_some {α β : Type _} (f : α → Option β) (l : List α)
    (h : ∀ a ∈ l, (f a).isSome) : (l.filterMap f).length = l.length := by
  induction l with
  | nil => rfl
  | cons a l ih =>
    have ha := h a (by simp)
    obtain ⟨b, hb⟩ := Option.isSome_iff_exists.mp ha
    simp [hb, ih (fun x hx => h x (by simp [hx]))]

theorem getElem?_filterMap_of_some {α β : Type _} (f : α → Option β) (l : List α)
    (h : ∀ a ∈ l, (f a).isSome) (i : Nat) : (l.filterMap f)[i]? = (l[i]?).bind f := by
  induction l generalizing i with
  | nil => simp
  | cons a l ih =>
    have ha := h a (by simp)
    obtain ⟨b, hb⟩ := Option.isSome_iff_exists.mp ha
    cases i with
    | zero => simp [hb]
    | succ i => simpa [hb] using ih (fun x hx => h x (by simp [hx])) i

/-- Rows produced by a successful reshape all have `c` entries. -/
theorem reshape_rows_length {α : Type _} {r c : Nat} {xs : List α} {rows : List (List α)}
    (h : reshape r c xs = .ok rows) : rows.length = r ∧ ∀ l ∈ rows, l.length = c := by
  unfold reshape at h
  split at h
  · next hl =>
    cases h
    refine ⟨by simp, ?_⟩
    intro l hm
    simp only [List.mem_map, List.mem_range] at hm
    obtain ⟨i, hi, rfl⟩ := hm
    simp only [List.length_take, List.length_drop, hl]
    have : (i + 1) * c ≤ r * c := Nat.mul_le_mul_right c hi
    have e : (i + 1) * c = i * c + c := by ring
    omega
  · cases h

/-- Entry `(i, j)` of a successful reshape is flat element `i*c+j`. -/
theorem reshape_get {α : Type _} {r c : Nat} {xs : List α} {rows : List (List α)}
    (h : reshape r c xs = .ok rows) (i j : Nat) (hi : i < r) (hj : j < c) :
    (rows[i]?).bind (fun l => l[j]?) = xs[i * c + j]? := by
  unfold reshape at h
  split at h
  · next hl =>
    cases h
    simp only [List.getElem?_map, List.getElem?_range hi, Option.map_some, Option.bind_some]
    exact getElem?_take_drop xs _ _ _ hj
  · cases h

theorem reshape_ok {α : Type _} {r c : Nat} {xs : List α} (h : xs.length = r * c) :
    ∃ rows, reshape r c xs = .ok rows := by
  unfold reshape; simp [h]

theorem transpose_length {α : Type _} (c : Nat) (rows : List (List α)) :
    (transpose c rows).length = c := by simp [transpose]

theorem transpose_rows_length {α : Type _} {c : Nat} {rows : List (List α)}
    (h : ∀ l ∈ rows, l.length = c) : ∀ l ∈ transpose c rows, l.length = rows.length := by
  intro l hl
  simp only [transpose, List.mem_map, List.mem_range] at hl
  obtain ⟨j, hj, rfl⟩ := hl
  apply filterMap_length_of_some
  intro a ha
  have := h a ha
  simp [this, hj]

theorem transpose_get {α : Type _} {c : Nat} {rows : List (List α)}
    (h : ∀ l ∈ rows, l.length = c) (i j : Nat) (hj : j < c) :
    ((transpose c rows)[j]?).bind (fun l => l[i]?) = (rows[i]?).bind (fun l => l[j]?) := by
  simp only [transpose, List.getElem?_map, List.getElem?_range hj, Option.map_some,
    Option.bind_some]
  apply getElem?_filterMap_of_some
  intro a ha
  have := h a ha
  simp [this, hj]

theorem tile_length {α : Type _} (m : Nat) (xs : List α) :
    (tile m xs).length = m * xs.length := by
  unfold tile
  rw [length_flatten_uniform xs.length]
  · simp
  · intro l hl; rw [List.eq_of_mem_replicate hl]

theorem tile_get {α : Type _} (m : Nat) (xs : List α) (i j : Nat) (hi : i < m)
    (hj : j < xs.length) : (tile m xs)[i * xs.length + j]? = xs[j]? := by
  unfold tile
  rw [getElem?_flatten_uniform xs.length _ _ _ _ hj]
  · simp [hi]
  · intro l hl; rw [List.eq_of_mem_replicate hl]

end Np
end Verif
