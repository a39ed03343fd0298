import Verif.Mc.Queue
import Verif.Sim.Power

/-!
# C103: extraction of signals

Model of `SignalExtractor` and `ExtractedSignals` in `core/evaluators.py`.  Samples are exact complex numbers.
-/

namespace Verif.Extract

open Verif.Mc Verif.Power

/-- A signal as stashed: dense signals are arrays of samples; sparse ones, which are neither arrays nor sequences
(`core/signal_model.py` 746, 1598), only have a shape. -/
inductive Stashed where
  | dense (streams samples : ℕ) (x : ℕ → ℕ → ℂ)
  | sparse (streams samples : ℕ)

/-- `num_streams`. -/
def Stashed.streams : Stashed → ℕ
  | .dense m _ _ => m
  | .sparse m _ => m

/-- `num_samples`. -/
def Stashed.samples : Stashed → ℕ
  | .dense _ n _ => n
  | .sparse _ n => n

/-- The samples, zero outside of the signal. -/
def Stashed.get : Stashed → ℕ → ℕ → ℂ
  | .dense m n x, i, t => if i < m ∧ t < n then x i t else 0
  | .sparse _ _, _, _ => 0

/-- `ExtractedSignals.__init__`, `core/evaluators.py` 538-557: a list of signals for each section of the grid. -/
structure Stash where
  dims : List ℕ
  at_ : Coord → List Stashed

/-- `__init__`. -/
def Stash.new (dims : List ℕ) : Stash := ⟨dims, fun _ => []⟩

/-- `add_artifact`, `core/evaluators.py` 559-567, which never reports confidence. Indices counted from the end of a
dimension are not modelled. -/
def Stash.add (s : Stash) (c : Coord) (x : Stashed) : Except PyErr (Stash × Bool) :=
  if c ∈ ndindex s.dims then .ok ({ s with at_ := setAt s.at_ c (s.at_ c ++ [x]) }, false) else .error .index

/-- A history of artifacts. -/
def Stash.addAll (s : Stash) : List (Coord × Stashed) → Except PyErr Stash
  | [] => .ok s
  | (c, x) :: l => do
    let r ← s.add c x
    r.1.addAll l

/-- Arrays of all sections, signals, streams and samples. -/
abbrev Samples := Coord → ℕ → ℕ → ℕ → ℂ

/-- `samples_array[c + (s, slice(0, streams), slice(0, samples))] = signal`, `core/evaluators.py` 596-602. The slices are
never clipped, since the array is as large as the largest signal. -/
def write (a : Samples) (c : Coord) (s : ℕ) : Stashed → Except PyErr Samples
  | .dense m n x => .ok fun c' s' i t => if c' = c ∧ s' = s ∧ i < m ∧ t < n then x i t else a c' s' i t
  | .sparse _ _ => .error .type

/-- The inner loop at lines 595-602. -/
def writeAll (a : Samples) (c : Coord) (s : ℕ) : List Stashed → Except PyErr Samples
  | [] => .ok a
  | x :: l => do writeAll (← write a c s x) c (s + 1) l

/-- The outer loop at lines 593-602. -/
def fill (at_ : Coord → List Stashed) (a : Samples) : List Coord → Except PyErr Samples
  | [] => .ok a
  | c :: cs => do fill at_ (← writeAll a c 0 (at_ c)) cs

/-- Largest number of a list. -/
def largest (l : List ℕ) : ℕ := l.foldr max 0

/-- `to_array`, `core/evaluators.py` 573-603: the shape beyond the grid and the samples. -/
def Stash.toArray (s : Stash) : Except PyErr ((ℕ × ℕ × ℕ) × Samples) := do
  let all := (ndindex s.dims).flatMap s.at_
  let a ← fill s.at_ (fun _ _ _ _ => 0) (ndindex s.dims)
  return ((largest ((ndindex s.dims).map fun c => (s.at_ c).length), largest (all.map Stashed.streams),
    largest (all.map Stashed.samples)), a)

/-- `SignalExtractor.evaluate`, `core/evaluators.py` 647-657, after a history of transmissions or receptions. -/
def extract (k : ℕ) (h : List (Note Stashed)) : Except PyErr Stashed := (fetch k .empty h).get

/-- The `i`-th signal added for section `c`. -/
def added (c : Coord) (h : List (Coord × Stashed)) : List Stashed := (h.filter (·.1 = c)).map (·.2)

theorem addAll_at (h : List (Coord × Stashed)) (s r : Stash) (hr : s.addAll h = .ok r) :
    r.dims = s.dims ∧ ∀ c, r.at_ c = s.at_ c ++ added c h := by
  induction h generalizing s with
  | nil => cases hr; simp [added]
  | cons p h ih =>
    obtain ⟨c, x⟩ := p
    simp only [Stash.addAll, Stash.add] at hr
    split at hr
    · obtain ⟨h1, h2⟩ := ih _ hr
      refine ⟨h1, fun c' => ?_⟩
      rw [h2, added, added]
      by_cases hc : c' = c
      · subst hc; simp [setAt]
      · have : ¬c = c' := fun e => hc e.symm
        simp [setAt, hc, this]
    · cases hr

theorem addAll_ok (h : List (Coord × Stashed)) (s : Stash) (hc : ∀ p ∈ h, p.1 ∈ ndindex s.dims) :
    ∃ r, s.addAll h = .ok r := by
  induction h generalizing s with
  | nil => exact ⟨s, rfl⟩
  | cons p h ih =>
    obtain ⟨c, x⟩ := p
    have := hc (c, x) (by simp)
    simp only [Stash.addAll, Stash.add, if_pos this]
    exact ih _ fun p hp => hc p (by simp [hp])

/-- Whether a signal is dense. -/
def Dense : Stashed → Prop
  | .dense _ _ _ => True
  | .sparse _ _ => False

theorem writeAll_ok (l : List Stashed) (hd : ∀ x ∈ l, Dense x) (a : Samples) (c : Coord) (s : ℕ) :
    ∃ b, writeAll a c s l = .ok b ∧ ∀ c' s' i t, b c' s' i t =
      if c' = c ∧ s ≤ s' ∧ s' < s + l.length ∧ (∃ x, l[s' - s]? = some x ∧ i < x.streams ∧ t < x.samples)
      then ((l[s' - s]?).map fun x => x.get i t).getD 0 else a c' s' i t := by
  induction l generalizing a s with
  | nil => exact ⟨a, rfl, fun c' s' i t => by rw [if_neg]; rintro ⟨-, h1, h2, -⟩; simp at h2; omega⟩
  | cons x l ih =>
    cases x with
    | sparse m n => exact (hd (.sparse m n) (by simp)).elim
    | dense m n x =>
      obtain ⟨b, hb, hb'⟩ := ih (fun x hx => hd x (by simp [hx]))
        (fun c' s' i t => if c' = c ∧ s' = s ∧ i < m ∧ t < n then x i t else a c' s' i t) (s + 1)
      refine ⟨b, by simpa [writeAll, write, bind, Except.bind] using hb, fun c' s' i t => ?_⟩
      rw [hb']
      by_cases hc : c' = c
      · by_cases hs : s' = s
        · subst hs
          rw [if_neg (by rintro ⟨-, h, -⟩; omega)]
          simp only [hc, true_and, Nat.sub_self, List.getElem?_cons_zero, Option.map_some, Option.getD_some]
          by_cases hi : i < m ∧ t < n
          · rw [if_pos hi, if_pos ⟨le_refl _, by simp, _, rfl, hi.1, hi.2⟩]
            simp [Stashed.get, hi]
          · rw [if_neg hi, if_neg]
            rintro ⟨-, -, x', e, h1, h2⟩
            cases e
            exact hi ⟨h1, h2⟩
        · by_cases hle : s + 1 ≤ s'
          · have e : (Stashed.dense m n x :: l)[s' - s]? = l[s' - (s + 1)]? := by
              rw [show s' - s = (s' - (s + 1)) + 1 by omega, List.getElem?_cons_succ]
            rw [e]
            simp only [hc, true_and, hs, false_and, if_false, List.length_cons]
            congr 1
            apply propext
            constructor
            · rintro ⟨-, h2, h3⟩; exact ⟨by omega, by omega, h3⟩
            · rintro ⟨-, h2, h3⟩; exact ⟨by omega, by omega, h3⟩
          · rw [if_neg (by rintro ⟨-, h, -⟩; omega), if_neg (by rintro ⟨-, h, -⟩; exact hs h),
              if_neg (by rintro ⟨-, h, -⟩; omega)]
      · rw [if_neg (by rintro ⟨h, -⟩; exact hc h), if_neg (by rintro ⟨h, -⟩; exact hc h),
          if_neg (by rintro ⟨h, -⟩; exact hc h)]

theorem fill_ok (at_ : Coord → List Stashed) (cs : List Coord) (hn : cs.Nodup) (hd : ∀ c ∈ cs, ∀ x ∈ at_ c, Dense x)
    (a : Samples) (ha : ∀ c ∈ cs, ∀ s i t, a c s i t = 0) :
    ∃ b, fill at_ a cs = .ok b ∧ ∀ c s i t, b c s i t =
      if c ∈ cs then (((at_ c)[s]?).map fun x => x.get i t).getD 0 else a c s i t := by
  induction cs generalizing a with
  | nil => exact ⟨a, rfl, by simp⟩
  | cons c cs ih =>
    obtain ⟨hc, hn⟩ := List.nodup_cons.mp hn
    obtain ⟨b, hb, hb'⟩ := writeAll_ok (at_ c) (hd c (by simp)) a c 0
    obtain ⟨d, h1, h2⟩ := ih hn (fun c' h' => hd c' (by simp [h'])) b (by
      intro c' h' s i t
      rw [hb', if_neg (by rintro ⟨e, -⟩; exact hc (e ▸ h'))]
      exact ha c' (by simp [h']) s i t)
    refine ⟨d, by simp only [fill, hb, bind, Except.bind]; exact h1, fun c' s i t => ?_⟩
    rw [h2]
    by_cases h' : c' ∈ cs
    · rw [if_pos h', if_pos (by simp [h'])]
    · rw [if_neg h', hb']
      by_cases e : c' = c
      · subst e
        rw [if_pos (by simp : c' ∈ c' :: cs)]
        simp only [true_and, Nat.zero_le, Nat.zero_add, Nat.sub_zero]
        split
        · rfl
        · rename_i hx
          rw [ha c' (by simp)]
          cases hs : (at_ c')[s]? with
          | none => rfl
          | some x =>
            have hlt : s < (at_ c').length := by
              by_contra h0
              rw [List.getElem?_eq_none (by omega)] at hs
              cases hs
            cases x with
            | sparse m n => rfl
            | dense m n x =>
              simp only [Option.map_some, Option.getD_some, Stashed.get]
              rw [if_neg]
              rintro ⟨h3, h4⟩
              exact hx ⟨hlt, _, hs, h3, h4⟩
      · rw [if_neg (by rintro ⟨h0, -⟩; exact e h0), if_neg (by simp [e, h'])]

theorem largest_le (l : List ℕ) (x : ℕ) (h : x ∈ l) : x ≤ largest l := by
  induction l with
  | nil => simp at h
  | cons y l ih =>
    have e : largest (y :: l) = max y (largest l) := rfl
    rw [e]
    rcases List.mem_cons.mp h with rfl | h
    · exact le_max_left _ _
    · exact le_trans (ih h) (le_max_right _ _)

theorem largest_mem (l : List ℕ) (h : l ≠ []) : largest l ∈ l := by
  induction l with
  | nil => exact absurd rfl h
  | cons y l ih =>
    have e : largest (y :: l) = max y (largest l) := rfl
    rw [e]
    by_cases hl : l = []
    · subst hl; simp [largest]
    · rcases max_choice y (largest l) with e | e <;> rw [e]
      · simp
      · exact List.mem_cons_of_mem _ (ih hl)

/-- C103: whatever dense signals are extracted in whatever order for the sections of a grid, the array of results holds
the samples of the `s`-th signal of each section, and zeros beyond its streams and samples; it is as large as the
largest signal and the largest number of signals. -/
theorem C103_samples_partial (dims : List ℕ) (h : List (Coord × Stashed)) (hc : ∀ p ∈ h, IsSection dims p.1)
    (hd : ∀ p ∈ h, Dense p.2) :
    ∃ r S M N a, (Stash.new dims).addAll h = .ok r ∧ r.toArray = .ok ((S, M, N), a) ∧
      (∀ c, IsSection dims c → ∀ s i t, a c s i t = (((added c h)[s]?).map fun x => x.get i t).getD 0) ∧
      (∀ p ∈ h, p.2.streams ≤ M ∧ p.2.samples ≤ N ∧ (added p.1 h).length ≤ S) ∧
      (h ≠ [] → (∃ p ∈ h, p.2.streams = M) ∧ (∃ p ∈ h, p.2.samples = N) ∧ ∃ p ∈ h, (added p.1 h).length = S) := by
  obtain ⟨r, hr⟩ := addAll_ok h (Stash.new dims) fun p hp => mem_ndindex.2 (hc p hp)
  obtain ⟨h1, h2⟩ := addAll_at h _ _ hr
  have h1 : r.dims = dims := h1
  have h2 : ∀ c, r.at_ c = added c h := fun c => by rw [h2]; rfl
  have hmem : ∀ c x, x ∈ added c h ↔ (c, x) ∈ h := by
    intro c x
    simp only [added, List.mem_map, List.mem_filter, decide_eq_true_eq]
    constructor
    · rintro ⟨⟨c', x'⟩, ⟨h3, rfl⟩, rfl⟩; exact h3
    · intro h3; exact ⟨(c, x), ⟨h3, rfl⟩, rfl⟩
  obtain ⟨a, ha, ha'⟩ := fill_ok r.at_ (ndindex dims) (nodup_ndindex dims)
    (fun c _ x hx => by rw [h2, hmem] at hx; exact hd _ hx) (fun _ _ _ _ => 0) (by simp)
  have hall : ∀ x, x ∈ (ndindex dims).flatMap r.at_ ↔ ∃ p ∈ h, p.2 = x := by
    intro x
    simp only [List.mem_flatMap, h2, hmem]
    constructor
    · rintro ⟨c, -, h3⟩; exact ⟨_, h3, rfl⟩
    · rintro ⟨p, hp, rfl⟩; exact ⟨p.1, mem_ndindex.2 (hc p hp), hp⟩
  refine ⟨r, largest ((ndindex dims).map fun c => (r.at_ c).length),
    largest (((ndindex dims).flatMap r.at_).map Stashed.streams),
    largest (((ndindex dims).flatMap r.at_).map Stashed.samples), a, hr, ?_, ?_, ?_, ?_⟩
  · simp only [Stash.toArray, h1, ha, bind, Except.bind, pure, Except.pure]
  · intro c hsec s i t
    rw [ha', if_pos (mem_ndindex.2 hsec), h2]
  · intro p hp
    refine ⟨largest_le _ _ (List.mem_map.mpr ⟨p.2, (hall _).2 ⟨p, hp, rfl⟩, rfl⟩),
      largest_le _ _ (List.mem_map.mpr ⟨p.2, (hall _).2 ⟨p, hp, rfl⟩, rfl⟩), ?_⟩
    exact largest_le _ _ (List.mem_map.mpr ⟨p.1, mem_ndindex.2 (hc p hp), by rw [h2]⟩)
  · intro hne
    obtain ⟨p0, hp0⟩ := List.exists_mem_of_ne_nil _ hne
    have hne' : (ndindex dims).flatMap r.at_ ≠ [] := by
      intro e
      have := (hall p0.2).2 ⟨p0, hp0, rfl⟩
      rw [e] at this
      simp at this
    refine ⟨?_, ?_, ?_⟩
    · obtain ⟨x, hx, e⟩ := List.mem_map.mp (largest_mem (((ndindex dims).flatMap r.at_).map Stashed.streams) (by simpa using hne'))
      obtain ⟨p, hp, rfl⟩ := (hall x).1 hx
      exact ⟨p, hp, e⟩
    · obtain ⟨x, hx, e⟩ := List.mem_map.mp (largest_mem (((ndindex dims).flatMap r.at_).map Stashed.samples) (by simpa using hne'))
      obtain ⟨p, hp, rfl⟩ := (hall x).1 hx
      exact ⟨p, hp, e⟩
    · set L := (ndindex dims).map fun c => (r.at_ c).length with hL
      have hLne : L ≠ [] := by
        intro e
        have := List.map_eq_nil_iff.mp e
        have h3 := mem_ndindex.2 (hc p0 hp0)
        rw [this] at h3
        simp at h3
      obtain ⟨c, hcm, e⟩ := List.mem_map.mp (largest_mem L hLne)
      have hle := largest_le L _ (List.mem_map.mpr ⟨p0.1, mem_ndindex.2 (hc p0 hp0), rfl⟩)
      have hpos : 0 < (r.at_ p0.1).length := by
        rw [h2]
        exact List.length_pos_of_mem ((hmem _ _).2 hp0)
      obtain ⟨x, hx⟩ := List.exists_mem_of_ne_nil (r.at_ c) (by intro e'; rw [e'] at e; simp at e; omega)
      rw [h2, hmem] at hx
      exact ⟨(c, x), hx, by rw [← h2]; exact e⟩

theorem writeAll_sparse (l : List Stashed) (h : ∃ x ∈ l, ¬Dense x) (a : Samples) (c : Coord) (s : ℕ) :
    writeAll a c s l = .error .type := by
  induction l generalizing a s with
  | nil => simp at h
  | cons x l ih =>
    cases x with
    | sparse m n => rfl
    | dense m n x =>
      obtain ⟨y, hy, hy'⟩ := h
      rcases List.mem_cons.mp hy with rfl | hy
      · exact absurd trivial hy'
      · exact ih ⟨y, hy, hy'⟩ _ _

theorem fill_sparse (at_ : Coord → List Stashed) (cs : List Coord) (h : ∃ c ∈ cs, ∃ x ∈ at_ c, ¬Dense x) (a : Samples) :
    fill at_ a cs = .error .type := by
  induction cs generalizing a with
  | nil => simp at h
  | cons c cs ih =>
    by_cases hc : ∃ x ∈ at_ c, ¬Dense x
    · simp [fill, writeAll_sparse _ hc, bind, Except.bind]
    · have hd : ∀ x ∈ at_ c, Dense x := by
        intro x hx
        by_contra h0
        exact hc ⟨x, hx, h0⟩
      obtain ⟨b, hb, -⟩ := writeAll_ok (at_ c) hd a c 0
      simp only [fill, hb, bind, Except.bind]
      apply ih
      obtain ⟨c', hc', x, hx, hx'⟩ := h
      rcases List.mem_cons.mp hc' with rfl | hc'
      · exact absurd (hd x hx) hx'
      · exact ⟨c', hc', x, hx, hx'⟩

/-- C103 fails for sparse signals: after one of them was extracted, no results can be obtained, not even those of other
sections. -/
theorem C103_sparse_fails (dims : List ℕ) (h : List (Coord × Stashed)) (hc : ∀ p ∈ h, IsSection dims p.1)
    (hs : ∃ p ∈ h, ¬Dense p.2) :
    ∃ r, (Stash.new dims).addAll h = .ok r ∧ r.toArray = .error .type := by
  obtain ⟨r, hr⟩ := addAll_ok h (Stash.new dims) fun p hp => mem_ndindex.2 (hc p hp)
  obtain ⟨h1, h2⟩ := addAll_at h _ _ hr
  refine ⟨r, hr, ?_⟩
  obtain ⟨p, hp, hp'⟩ := hs
  have e : fill r.at_ (fun _ _ _ _ => 0) (ndindex r.dims) = .error .type := by
    apply fill_sparse
    refine ⟨p.1, by rw [h1]; exact mem_ndindex.2 (hc p hp), p.2, ?_, hp'⟩
    rw [h2]
    simp only [Stash.new, List.nil_append, added, List.mem_map, List.mem_filter, decide_eq_true_eq]
    exact ⟨p, ⟨hp, rfl⟩, rfl⟩
  simp only [Stash.toArray, e, bind, Except.bind]

/-- C103: extraction never stops a simulation early. -/
theorem C103_confidence (s r : Stash) (c : Coord) (x : Stashed) (b : Bool) (h : s.add c x = .ok (r, b)) : b = false := by
  unfold Stash.add at h
  split at h <;> cases h
  rfl

/-- C103: the signal extracted is the one last transmitted or received by the target, and `RuntimeError` is raised
if there was none. -/
theorem C103_latest (k : ℕ) (h : List (Note Stashed)) :
    (∀ pre post n, h = pre ++ n :: post → n.target = k → n.notify = true →
      (∀ m ∈ post, m.target = k → m.notify = false) → extract k h = .ok n.value) ∧
    ((∀ n ∈ h, n.target = k → n.notify = false) → extract k h = .error .runtime) := by
  constructor
  · rintro pre post n rfl rfl hn hp
    rw [extract, fetch_last _ _ _ _ hn hp]
    rfl
  · intro hk
    rw [extract, fetch_skip _ _ _ hk]
    rfl

/-- Signals of different sizes in two sections. -/
example : ∃ r S M N a, (Stash.new [2]).addAll [([1], .dense 1 2 fun _ t => t), ([0], .dense 2 1 fun i _ => i),
      ([1], .dense 1 1 fun _ _ => 7)] = .ok r ∧
    r.toArray = .ok ((S, M, N), a) ∧ S = 2 ∧ M = 2 ∧ N = 2 ∧ a [1] 1 0 0 = 7 ∧ a [1] 0 0 1 = 1 ∧ a [0] 0 1 0 = 1 ∧
      a [0] 1 0 0 = 0 := by
  obtain ⟨r, S, M, N, a, h1, h2, h3, h4, h5⟩ := C103_samples_partial [2] [([1], .dense 1 2 fun _ t => t),
    ([0], .dense 2 1 fun i _ => i), ([1], .dense 1 1 fun _ _ => 7)] (by simp [IsSection]) (by simp [Dense])
  refine ⟨r, S, M, N, a, h1, h2, ?_⟩
  obtain ⟨⟨p, hp, hM⟩, ⟨p', hp', hN⟩, ⟨q, hq, hS⟩⟩ := h5 (by simp)
  have e := h4 ([1], .dense 1 2 fun _ t => t) (by simp)
  have e' := h4 ([0], .dense 2 1 fun i _ => i) (by simp)
  refine ⟨?_, ?_, ?_, ?_, ?_, ?_, ?_⟩
  · simp [added] at e hq hS
    rcases hq with rfl | rfl | rfl <;> simp at hS <;> omega
  · simp [Stashed.streams] at e' hp
    rcases hp with rfl | rfl | rfl <;> simp [Stashed.streams] at hM <;> omega
  · simp [Stashed.samples] at e hp'
    rcases hp' with rfl | rfl | rfl <;> simp [Stashed.samples] at hN <;> omega
  · rw [h3 [1] (by simp [IsSection])]; simp [added, Stashed.get]
  · rw [h3 [1] (by simp [IsSection])]; simp [added, Stashed.get]
  · rw [h3 [0] (by simp [IsSection])]; simp [added, Stashed.get]
  · rw [h3 [0] (by simp [IsSection])]; simp [added]

end Verif.Extract
