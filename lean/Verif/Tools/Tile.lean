import Verif.Signal.Resample

/-!
# C141: tiling figures

`tile_figures` and `screen_geometry` of `hermespy/tools/tile.py`.  Sizes of screens are natural numbers, positions and offsets integers; divisions are
those of rational numbers.
-/

namespace Verif.Tile

open Verif (PyErr)
open Verif.Signal (pyRound pyRound_nonneg)
open Verif.Resample (pyRound_int pyRound_close)

/-- Position and size of a window or screen. -/
structure Rect where
  x : Int
  y : Int
  w : Nat
  h : Nat
deriving DecidableEq

/-- `screen_geometry`, `tile.py` 36-60; negative indices count from the end. -/
def screenGeometry (monitors : List Rect) (monitor : Int) : Except PyErr Rect :=
  if monitors.length = 0 then .ok ⟨0, 0, 900, 600⟩
  else
    let k := if monitor < 0 then monitor + monitors.length else monitor
    if 0 ≤ k ∧ k < monitors.length then .ok (monitors.getD k.toNat ⟨0, 0, 0, 0⟩) else .error .index

/-- `np.round(cols / tile_aspect)`, `tile.py` 107 and 110, of a layout of `c` columns and `r` rows. -/
def wantedRows (c r cols : Nat) : Nat := (pyRound ((cols : ℚ) / ((c : ℚ) / r))).toNat

/-- The loop of `tile.py` 108-110; `none` if it has not ended after `fuel` steps. -/
def adjust (c r n : Nat) : Nat → Nat → Nat → Option (Nat × Nat)
  | 0, _, _ => none
  | fuel + 1, cols, rows =>
    if n > cols * rows then adjust c r n fuel (cols + 1) (max (wantedRows c r (cols + 1)) rows) else some (cols, rows)

/-- The geometry of figure `i`, `tile.py` 112-118; `screen` as it is given, moved by the offsets in 103-104. -/
def place (screen : Rect) (ox oy : Int) (cols rows i : Nat) : Rect :=
  ⟨(i % cols : Nat) * ((screen.w / cols : Nat) + ox) + (screen.x + ox), (i / cols : Nat) * ((screen.h / rows : Nat) + oy) + (screen.y + oy),
    screen.w / cols, screen.h / rows⟩

/-- What may become of a call: a failed assertion, no end within `fuel` steps of the loop, or geometries of all figures. -/
inductive Outcome
  | assertion
  | running
  | done (figures : List Rect)

/-- `tile_figures`, `tile.py` 76-118, of `n` figures. -/
def tileFigures (c r : Nat) (screen : Rect) (ox oy : Int) (n fuel : Nat) : Outcome :=
  if ¬0 < c then .assertion
  else if ¬0 < r then .assertion
  else match adjust c r n fuel c r with
    | none => .running
    | some (cols, rows) => .done ((List.range n).map (place screen ox oy cols rows))

/-- `set_figure_geometry`, `tile.py` 63-73: windows of some backends are moved, all others stay. -/
def setGeometry (backend : String) (window target : Rect) : Rect :=
  if backend = "Qt5Agg" ∨ backend = "Qt4Agg" then target
  else if backend = "TkAgg" then target
  else window

/-! ### The loop -/

/-- Rows grow with the columns. -/
theorem le_wantedRows (c r cols : Nat) (hc : 0 < c) (hr : 0 < r) (h : c ≤ cols) : r ≤ wantedRows c r cols := by
  have hc' : (0 : ℚ) < c := by exact_mod_cast hc
  have hr' : (0 : ℚ) < r := by exact_mod_cast hr
  have hle : (r : ℚ) ≤ (cols : ℚ) / ((c : ℚ) / r) := by
    rw [div_div_eq_mul_div, le_div_iff₀ hc', mul_comm]
    have : (c : ℚ) ≤ cols := by exact_mod_cast h
    exact mul_le_mul_of_nonneg_right this hr'.le
  have hcl := abs_le.mp (pyRound_close ((cols : ℚ) / ((c : ℚ) / r)))
  have : ((r : ℤ) : ℚ) < (pyRound ((cols : ℚ) / ((c : ℚ) / r)) : ℚ) + 1 := by
    push_cast
    linarith [hcl.1]
  have h2 : (r : ℤ) < pyRound ((cols : ℚ) / ((c : ℚ) / r)) + 1 := by exact_mod_cast this
  unfold wantedRows
  omega

/-- Rows never shrink. -/
theorem wantedRows_mono (c r a b : Nat) (hc : 0 < c) (hr : 0 < r) (h : a ≤ b) : wantedRows c r a ≤ wantedRows c r b := by
  have hc' : (0 : ℚ) < c := by exact_mod_cast hc
  have hr' : (0 : ℚ) < r := by exact_mod_cast hr
  unfold wantedRows
  apply Int.toNat_le_toNat
  rcases Nat.eq_or_lt_of_le h with rfl | h
  · exact le_refl _
  · apply round_mono
    have : (a : ℚ) ≤ b := by exact_mod_cast h.le
    exact div_le_div_of_nonneg_right this (by positivity)
where
  round_mono {x y : ℚ} (h : x ≤ y) : pyRound x ≤ pyRound y := by
    have hf : ⌊x⌋ ≤ ⌊y⌋ := Int.floor_mono h
    have hx1 := Int.floor_le x
    have hx2 := Int.lt_floor_add_one x
    have hy1 := Int.floor_le y
    have hy2 := Int.lt_floor_add_one y
    rcases eq_or_lt_of_le hf with he | hl
    · unfold pyRound
      simp only [← he] at hy1 hy2 ⊢
      split_ifs <;> first | omega | (exfalso; linarith)
    · unfold pyRound
      simp only
      split_ifs <;> omega

/-- What the loop ends with. -/
theorem adjust_spec (c r n : Nat) (hc : 0 < c) (hr : 0 < r) : ∀ (fuel cols rows : Nat), c ≤ cols → n < cols + fuel → 0 < fuel →
    (cols = c ∧ rows = r ∨ c < cols ∧ rows = wantedRows c r cols) →
    ∃ cols' rows', adjust c r n fuel cols rows = some (cols', rows') ∧ cols ≤ cols' ∧ n ≤ cols' * rows' ∧
      (cols' = c ∧ rows' = r ∨ c < cols' ∧ rows' = wantedRows c r cols') ∧ (cols < cols' → (cols' - 1) * rows < n) := by
  intro fuel
  induction fuel with
  | zero => intro cols rows _ _ h0; omega
  | succ fuel ih =>
    intro cols rows hcc hn _ hrows
    unfold adjust
    by_cases h : n > cols * rows
    · rw [if_pos h]
      have hrow1 : r ≤ rows := by
        rcases hrows with ⟨_, rfl⟩ | ⟨hlt, rfl⟩
        · exact le_refl _
        · exact le_wantedRows c r cols hc hr hcc
      have hpos : cols * 1 ≤ cols * rows := Nat.mul_le_mul_left cols (by omega)
      have hmax : max (wantedRows c r (cols + 1)) rows = wantedRows c r (cols + 1) := by
        apply max_eq_left
        rcases hrows with ⟨_, rfl⟩ | ⟨_, rfl⟩
        · exact le_wantedRows c rows (cols + 1) hc hr (by omega)
        · exact wantedRows_mono c r cols (cols + 1) hc hr (by omega)
      rw [hmax]
      obtain ⟨c', r', h1, h2, h3, h4, h5⟩ := ih (cols + 1) (wantedRows c r (cols + 1)) (by omega) (by omega) (by omega) (Or.inr ⟨by omega, rfl⟩)
      refine ⟨c', r', h1, by omega, h3, h4, fun _ => ?_⟩
      rcases Nat.eq_or_lt_of_le h2 with he | hl
      · rw [← he]; exact h
      · have hm : rows ≤ wantedRows c r (cols + 1) := by rw [← hmax]; exact le_max_right _ _
        exact lt_of_le_of_lt (Nat.mul_le_mul_left _ hm) (h5 hl)
    · rw [if_neg h]
      exact ⟨cols, rows, rfl, le_refl _, by omega, hrows, fun h => absurd h (lt_irrefl _)⟩

/-- **Tiling ends.**  For every number of figures and every layout there is one tiling the loop ends with, in no more steps than there are figures, with
room for all figures; layouts with enough room are kept. -/
theorem C141_ends (c r : Nat) (hc : 0 < c) (hr : 0 < r) (screen : Rect) (ox oy : Int) (n : Nat) :
    ∃ cols rows, c ≤ cols ∧ r ≤ rows ∧ n ≤ cols * rows ∧ (n ≤ c * r → cols = c ∧ rows = r) ∧
      ∀ fuel, n < fuel → tileFigures c r screen ox oy n fuel = .done ((List.range n).map (place screen ox oy cols rows)) := by
  obtain ⟨cols, rows, h1, h2, h3, h4, h5⟩ := adjust_spec c r n hc hr (n + 1) c r (le_refl _) (by omega) (by omega) (Or.inl ⟨rfl, rfl⟩)
  have hrr : r ≤ rows := by
    rcases h4 with ⟨_, rfl⟩ | ⟨_, rfl⟩
    · exact le_refl _
    · exact le_wantedRows c r cols hc hr h2
  refine ⟨cols, rows, h2, hrr, h3, ?_, ?_⟩
  · intro hle
    rcases h4 with h | ⟨hlt, _⟩
    · exact h
    · have := h5 hlt
      have : c * r ≤ (cols - 1) * r := Nat.mul_le_mul_right r (by omega)
      omega
  · intro fuel hf
    have hmono : ∀ (f g a b : Nat) (v : Nat × Nat), f ≤ g → adjust c r n f a b = some v → adjust c r n g a b = some v := by
      intro f
      induction f with
      | zero => intro g a b v _ h; simp [adjust] at h
      | succ f ih =>
        intro g a b v hg h
        obtain ⟨g, rfl⟩ : ∃ k, g = k + 1 := ⟨g - 1, by omega⟩
        unfold adjust at h ⊢
        by_cases hh : n > a * b
        · rw [if_pos hh] at h ⊢; exact ih g _ _ v (by omega) h
        · rw [if_neg hh] at h ⊢; exact h
    unfold tileFigures
    rw [if_neg (by omega), if_neg (by omega), hmono (n + 1) fuel c r (cols, rows) (by omega) h1]

/-- **The layout is kept.**  However many figures there are, the rows are those of the ratio of columns and rows that was asked for, rounded. -/
theorem C141_aspect (c r : Nat) (hc : 0 < c) (hr : 0 < r) (n fuel cols rows : Nat) (hf : n < fuel) (h : adjust c r n fuel c r = some (cols, rows)) :
    |(rows : ℚ) - cols * r / c| ≤ 1 / 2 := by
  obtain ⟨c', r', h1, _, _, h4, _⟩ := adjust_spec c r n hc hr fuel c r (le_refl _) (by omega) (by omega) (Or.inl ⟨rfl, rfl⟩)
  rw [h] at h1
  simp only [Option.some.injEq, Prod.mk.injEq] at h1
  obtain ⟨rfl, rfl⟩ := h1
  have hc' : (c : ℚ) ≠ 0 := by exact_mod_cast hc.ne'
  rcases h4 with ⟨rfl, rfl⟩ | ⟨_, rfl⟩
  · rw [mul_comm, mul_div_assoc, div_self hc', mul_one, sub_self]
    norm_num
  · have hnn : 0 ≤ pyRound ((cols : ℚ) / ((c : ℚ) / r)) := pyRound_nonneg (by positivity)
    have e : ((wantedRows c r cols : Nat) : ℚ) = (pyRound ((cols : ℚ) / ((c : ℚ) / r)) : ℚ) := by
      unfold wantedRows
      have : (((pyRound ((cols : ℚ) / ((c : ℚ) / r))).toNat : ℤ) : ℚ) = (pyRound ((cols : ℚ) / ((c : ℚ) / r)) : ℚ) := by
        rw [Int.toNat_of_nonneg hnn]
      exact_mod_cast this
    rw [e, ← div_div_eq_mul_div]
    exact pyRound_close _

/-- **No wider than needed.**  Were there a column less, some figure would have no place in the rows asked for. -/
theorem C141_tight (c r : Nat) (hc : 0 < c) (hr : 0 < r) (n fuel cols rows : Nat) (hf : n < fuel) (h : adjust c r n fuel c r = some (cols, rows))
    (hlt : c < cols) : (cols - 1) * r < n := by
  obtain ⟨c', r', h1, _, _, _, h5⟩ := adjust_spec c r n hc hr fuel c r (le_refl _) (by omega) (by omega) (Or.inl ⟨rfl, rfl⟩)
  rw [h] at h1
  simp only [Option.some.injEq, Prod.mk.injEq] at h1
  obtain ⟨rfl, rfl⟩ := h1
  exact h5 hlt

/-! ### Geometries -/

/-- Figures are within the screen, without offsets. -/
theorem place_inside (screen : Rect) (cols rows i : Nat) (hc : 0 < cols) (hi : i < cols * rows) :
    screen.x ≤ (place screen 0 0 cols rows i).x ∧ (place screen 0 0 cols rows i).x + (place screen 0 0 cols rows i).w ≤ screen.x + screen.w ∧
    screen.y ≤ (place screen 0 0 cols rows i).y ∧ (place screen 0 0 cols rows i).y + (place screen 0 0 cols rows i).h ≤ screen.y + screen.h := by
  have h1 : i % cols + 1 ≤ cols := Nat.mod_lt i hc
  have h2 : i / cols + 1 ≤ rows := Nat.div_lt_of_lt_mul hi
  have e1 : (i % cols + 1) * (screen.w / cols) ≤ screen.w := (Nat.mul_le_mul_right _ h1).trans (Nat.mul_div_le _ _)
  have e2 : (i / cols + 1) * (screen.h / rows) ≤ screen.h := (Nat.mul_le_mul_right _ h2).trans (Nat.mul_div_le _ _)
  rw [Nat.add_mul, Nat.one_mul] at e1 e2
  have f1 : ((i % cols : Nat) : ℤ) * ((screen.w / cols : Nat) : ℤ) + ((screen.w / cols : Nat) : ℤ) ≤ screen.w := by exact_mod_cast e1
  have f2 : ((i / cols : Nat) : ℤ) * ((screen.h / rows : Nat) : ℤ) + ((screen.h / rows : Nat) : ℤ) ≤ screen.h := by exact_mod_cast e2
  have g1 : (0 : ℤ) ≤ ((i % cols : Nat) : ℤ) * ((screen.w / cols : Nat) : ℤ) := by positivity
  have g2 : (0 : ℤ) ≤ ((i / cols : Nat) : ℤ) * ((screen.h / rows : Nat) : ℤ) := by positivity
  simp only [place, add_zero]
  refine ⟨by linarith, by linarith, by linarith, by linarith⟩

/-- **Figures stay on the screen,** without offsets. -/
theorem C141_inside_partial (c r : Nat) (screen : Rect) (n fuel : Nat) (figures : List Rect) (h : tileFigures c r screen 0 0 n fuel = .done figures) :
    figures.length = n ∧ ∀ f ∈ figures, screen.x ≤ f.x ∧ f.x + f.w ≤ screen.x + screen.w ∧ screen.y ≤ f.y ∧ f.y + f.h ≤ screen.y + screen.h := by
  obtain ⟨cols, rows, hcol, hroom, rfl⟩ := done_spec c r screen 0 0 n fuel figures h
  refine ⟨by simp, ?_⟩
  intro f hf
  obtain ⟨i, hi, rfl⟩ := List.mem_map.mp hf
  exact place_inside screen cols rows i hcol (lt_of_lt_of_le (List.mem_range.mp hi) hroom)
where
  adjust_done (c r n : Nat) : ∀ (fuel a b cols rows : Nat), 0 < a → adjust c r n fuel a b = some (cols, rows) → 0 < cols ∧ n ≤ cols * rows := by
    intro fuel
    induction fuel with
    | zero => intro a b cols rows _ h; simp [adjust] at h
    | succ fuel ih =>
      intro a b cols rows ha h
      unfold adjust at h
      by_cases hh : n > a * b
      · rw [if_pos hh] at h; exact ih _ _ cols rows (by omega) h
      · rw [if_neg hh] at h
        simp only [Option.some.injEq, Prod.mk.injEq] at h
        obtain ⟨rfl, rfl⟩ := h
        exact ⟨ha, by omega⟩
  done_spec (c r : Nat) (screen : Rect) (ox oy : Int) (n fuel : Nat) (figures : List Rect) (h : tileFigures c r screen ox oy n fuel = .done figures) :
      ∃ cols rows, 0 < cols ∧ n ≤ cols * rows ∧ figures = (List.range n).map (place screen ox oy cols rows) := by
    unfold tileFigures at h
    by_cases hc : 0 < c
    · rw [if_neg (by omega)] at h
      by_cases hr : 0 < r
      · rw [if_neg (by omega)] at h
        cases ha : adjust c r n fuel c r with
        | none => rw [ha] at h; simp at h
        | some v =>
          rw [ha] at h
          simp only [Outcome.done.injEq] at h
          obtain ⟨h1, h2⟩ := adjust_done c r n fuel c r v.1 v.2 hc ha
          exact ⟨v.1, v.2, h1, h2, h.symm⟩
      · rw [if_pos hr] at h; simp at h
    · rw [if_pos hc] at h; simp at h

/-- **Figures do not overlap,** whatever the screen, with any offsets that are not negative. -/
theorem C141_disjoint (c r : Nat) (screen : Rect) (ox oy : Int) (hx : 0 ≤ ox) (hy : 0 ≤ oy) (n fuel : Nat) (figures : List Rect)
    (h : tileFigures c r screen ox oy n fuel = .done figures) (i j : Nat) (hij : i ≠ j) (f g : Rect) (hf : figures[i]? = some f)
    (hg : figures[j]? = some g) : f.x + f.w ≤ g.x ∨ g.x + g.w ≤ f.x ∨ f.y + f.h ≤ g.y ∨ g.y + g.h ≤ f.y := by
  obtain ⟨cols, rows, hcol, _, rfl⟩ := C141_inside_partial.done_spec c r screen ox oy n fuel figures h
  have hpl : ∀ k (q : Rect), ((List.range n).map (place screen ox oy cols rows))[k]? = some q → q = place screen ox oy cols rows k := by
    intro k q hq
    rw [List.getElem?_map] at hq
    by_cases hk : k < n
    · rw [List.getElem?_range hk] at hq
      simpa using hq.symm
    · rw [List.getElem?_eq_none (by simpa using hk)] at hq
      simp at hq
  rw [hpl i f hf, hpl j g hg]
  have key : ∀ (a b d : Nat) (o : ℤ), 0 ≤ o → a < b → (a : ℤ) * ((d : ℤ) + o) + (d : ℤ) ≤ (b : ℤ) * ((d : ℤ) + o) := by
    intro a b d o ho hab
    have hd : (0 : ℤ) ≤ (d : ℤ) + o := by positivity
    have hb : (a : ℤ) + 1 ≤ b := by exact_mod_cast hab
    nlinarith [mul_le_mul_of_nonneg_right hb hd]
  simp only [place]
  rcases Nat.lt_trichotomy (i / cols) (j / cols) with hlt | heq | hgt
  · right; right; left
    have := key _ _ (screen.h / rows) oy hy hlt
    linarith
  · have hne : i % cols ≠ j % cols := by
      intro he
      apply hij
      rw [← Nat.div_add_mod i cols, ← Nat.div_add_mod j cols, heq, he]
    rcases Nat.lt_or_gt_of_ne hne with hlt | hgt
    · left
      have := key _ _ (screen.w / cols) ox hx hlt
      linarith
    · right; left
      have := key _ _ (screen.w / cols) ox hx hgt
      linarith
  · right; right; right
    have := key _ _ (screen.h / rows) oy hy hgt
    linarith

/-- **Offsets push figures off the screen.**  The sizes of figures do not account for offsets: on a screen the columns fill, any positive offset
places the last figure of a full row beyond the right edge, by the offset times the number of columns. -/
theorem C141_offset_fails (c r : Nat) (hc : 0 < c) (hr : 0 < r) (screen : Rect) (hw : c ∣ screen.w) (ox oy : Int) (hx : 0 < ox) :
    ∃ figures f, tileFigures c r screen ox oy c (c + 1) = .done figures ∧ figures[c - 1]? = some f ∧
      f.x + f.w = screen.x + screen.w + c * ox ∧ screen.x + screen.w < f.x + f.w := by
  obtain ⟨cols, rows, _, _, _, hkeep, hend⟩ := C141_ends c r hc hr screen ox oy c
  obtain ⟨rfl, rfl⟩ := hkeep (Nat.le_mul_of_pos_right c hr)
  have hlt : cols - 1 < cols := by omega
  have heq : (place screen ox oy cols rows (cols - 1)).x + (place screen ox oy cols rows (cols - 1)).w = screen.x + screen.w + cols * ox := by
    obtain ⟨q, hq⟩ := hw
    simp only [place, Nat.mod_eq_of_lt hlt]
    rw [hq, Nat.mul_div_cancel_left q hc]
    push_cast [Nat.cast_sub (by omega : 1 ≤ cols)]
    ring
  refine ⟨_, place screen ox oy cols rows (cols - 1), hend (cols + 1) (by omega), ?_, heq, ?_⟩
  · rw [List.getElem?_map, List.getElem?_range hlt]; rfl
  · rw [heq]
    have : (0 : ℤ) < cols * ox := by positivity
    linarith

/-- **Layouts** without columns or rows are refused. -/
theorem C141_refused (c r : Nat) (h : c = 0 ∨ r = 0) (screen : Rect) (ox oy : Int) (n fuel : Nat) : tileFigures c r screen ox oy n fuel = .assertion := by
  unfold tileFigures
  by_cases hc : 0 < c
  · rw [if_neg (by omega), if_pos (by omega)]
  · rw [if_pos hc]

/-- **Screens.**  There always is a screen for tiling, and monitors are those asked for. -/
theorem C141_screen (monitors : List Rect) :
    (∃ s, screenGeometry monitors 0 = .ok s ∧ ∀ m ∈ monitors.head?, s = m) ∧
    ∀ (k : Nat) (m : Rect), monitors[k]? = some m → screenGeometry monitors k = .ok m := by
  have hk : ∀ (k : Nat) (m : Rect), monitors[k]? = some m → screenGeometry monitors k = .ok m := by
    intro k m hm
    have hlt : k < monitors.length := by
      by_contra hn
      rw [List.getElem?_eq_none (by omega)] at hm
      simp at hm
    unfold screenGeometry
    rw [if_neg (by omega)]
    dsimp only
    rw [if_neg (by omega : ¬((k : ℤ) < 0)), if_pos ⟨by omega, by exact_mod_cast hlt⟩]
    simp [List.getD_eq_getElem?_getD, hm]
  refine ⟨?_, hk⟩
  cases monitors with
  | nil => exact ⟨_, rfl, by simp⟩
  | cons m ms => exact ⟨m, hk 0 m rfl, by simp⟩

/-- **Backends.**  Windows of the backends named take the geometry, those of all others are left as they are. -/
theorem C141_backends (backend : String) (window target : Rect) :
    setGeometry backend window target = if backend ∈ ["Qt5Agg", "Qt4Agg", "TkAgg"] then target else window := by
  unfold setGeometry
  by_cases h1 : backend = "Qt5Agg"
  · simp [h1]
  · by_cases h2 : backend = "Qt4Agg"
    · simp [h2]
    · by_cases h3 : backend = "TkAgg"
      · simp [h3]
      · simp [h1, h2, h3]

/-- Non-vacuity: seven figures on three columns and two rows take four columns and three rows. -/
example : adjust 3 2 7 8 3 2 = some (4, 3) ∧ ∃ figures, tileFigures 3 2 ⟨10, 0, 1200, 900⟩ 0 0 7 8 = .done figures ∧
    figures[6]? = some ⟨610, 300, 300, 300⟩ := by
  have h : adjust 3 2 7 8 3 2 = some (4, 3) := by decide +kernel
  refine ⟨h, (List.range 7).map (place ⟨10, 0, 1200, 900⟩ 0 0 4 3), ?_, by decide +kernel⟩
  unfold tileFigures
  rw [if_neg (by decide), if_neg (by decide), h]

example : ∃ figures f, tileFigures 3 2 ⟨0, 0, 900, 600⟩ 20 0 3 4 = .done figures ∧ figures[2]? = some f ∧ f.x + (f.w : Int) = 960 := by
  obtain ⟨a, f, h1, h2, h3, _⟩ := C141_offset_fails 3 2 (by decide) (by decide) ⟨0, 0, 900, 600⟩ (by decide) 20 0 (by decide)
  exact ⟨a, f, h1, h2, by simpa using h3⟩

end Verif.Tile
