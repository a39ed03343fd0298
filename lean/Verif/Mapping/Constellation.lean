import Verif.Mapping.Demap

/-!
# C14: the default constellations

Injectivity, minimum distance, Gray labelling and mean energy of the 3GPP constellations.
-/

namespace Verif.Mapping

open Complex

/-- Number of positions in which two words differ. -/
def hamming (a b : List Bool) : Nat := ((a.zip b).filter fun p => p.1 != p.2).length

/-- `get_mapping`: the word of a symbol index, `psk_qam_mapping.py` 509-518, most significant bit
first. -/
def wordOf (n i : Nat) : List Bool := (List.range n).map fun k => Nat.testBit i (n - 1 - k)

/-- `get_mapping` without custom mapping, `psk_qam_mapping.py` 499-524: the symbols of all words. -/
noncomputable def getMapping3gpp (order : Nat) (cplx : Bool) : Except PyErr (List ℂ) :=
  getSymbols3gpp order cplx ((List.range order).flatMap (wordOf (Nat.log2 order)))

/-! ### The integer alphabets -/

/-- Facts about one PAM alphabet: amplitudes are odd, distinct words have distinct amplitudes, and
words at distance two differ in one bit. -/
def PamFacts (o : Nat) : Prop :=
  ∀ w w' : List Bool, w.length = Nat.log2 o → w'.length = Nat.log2 o → ∀ s t : ℤ,
    pam o w = .ok s → pam o w' = .ok t →
      s % 2 = 1 ∧ (s = t → w = w') ∧ (|s - t| = 2 → hamming w w' = 1) ∧ |s| < o

theorem pamFacts2 : PamFacts 2 := by
  intro w w' hw hw' s t hs ht
  rw [show Nat.log2 2 = 1 by decide] at hw hw'
  match w, hw, w', hw' with
  | [a], _, [b], _ =>
    cases hs; cases ht
    revert a b
    decide

theorem pamFacts4 : PamFacts 4 := by
  intro w w' hw hw' s t hs ht
  rw [show Nat.log2 4 = 2 by decide] at hw hw'
  match w, hw, w', hw' with
  | [a, b], _, [c, d], _ =>
    cases hs; cases ht
    revert a b c d
    decide

theorem pamFacts8 : PamFacts 8 := by
  intro w w' hw hw' s t hs ht
  rw [show Nat.log2 8 = 3 by decide] at hw hw'
  match w, hw, w', hw' with
  | [a, b, c], _, [d, e, f], _ =>
    cases hs; cases ht
    revert a b c d e f
    decide +kernel

theorem pamFacts16 : PamFacts 16 := by
  intro w w' hw hw' s t hs ht
  rw [show Nat.log2 16 = 4 by decide] at hw hw'
  match w, hw, w', hw' with
  | [a, b, c, d], _, [e, f, g, h], _ =>
    cases hs; cases ht
    revert a b c d e f g h
    decide +kernel

theorem pamFacts (o : Nat) (ho : IsPam o) : PamFacts o := by
  rcases ho with rfl | rfl | rfl | rfl
  · exact pamFacts2
  · exact pamFacts4
  · exact pamFacts8
  · exact pamFacts16

/-! ### Coordinates of a symbol -/

/-- The constellation is built from one PAM alphabet (real) or two (complex). -/
inductive Shape (order : Nat) (cplx : Bool) : Prop
  | real (o : Nat) (ho : IsPam o) (hl : Nat.log2 order = Nat.log2 o)
      (hn : normOf order cplx = pamNorm o)
      (hs : ∀ w, getSymbol3gpp order cplx w = pamSymbol o (pamNorm o) w)
  | quad (o : Nat) (ho : IsPam o) (hl : Nat.log2 order = 2 * Nat.log2 o)
      (hn : normOf order cplx = 2 * pamNorm o)
      (hs : ∀ w, getSymbol3gpp order cplx w = qamSymbol o (2 * pamNorm o) w)

theorem shape (order : Nat) (cplx : Bool) (hS : Supported order cplx) : Shape order cplx := by
  rcases hS with ⟨rfl, h⟩ | ⟨rfl, h⟩
  · rcases h with rfl | rfl | rfl | rfl | rfl
    · exact .real 2 (by unfold IsPam; omega) rfl rfl (by intro w; simp [getSymbol3gpp, pamNorm])
    · exact .quad 2 (by unfold IsPam; omega) (by decide) (by norm_num [normOf, pamNorm])
        (by intro w; simp [getSymbol3gpp, pamNorm])
    · exact .quad 4 (by unfold IsPam; omega) (by decide) (by norm_num [normOf, pamNorm])
        (by intro w; norm_num [getSymbol3gpp, pamNorm])
    · exact .quad 8 (by unfold IsPam; omega) (by decide) (by norm_num [normOf, pamNorm])
        (by intro w; norm_num [getSymbol3gpp, pamNorm])
    · exact .quad 16 (by unfold IsPam; omega) (by decide) (by norm_num [normOf, pamNorm])
        (by intro w; norm_num [getSymbol3gpp, pamNorm])
  · rcases h with rfl | rfl | rfl | rfl
    · exact .real 2 (by unfold IsPam; omega) rfl rfl (by intro w; simp [getSymbol3gpp, pamNorm])
    · exact .real 4 (by unfold IsPam; omega) rfl rfl (by intro w; simp [getSymbol3gpp, pamNorm])
    · exact .real 8 (by unfold IsPam; omega) rfl rfl (by intro w; simp [getSymbol3gpp, pamNorm])
    · exact .real 16 (by unfold IsPam; omega) rfl rfl (by intro w; simp [getSymbol3gpp, pamNorm])

theorem evens_odds_inj (k : Nat) (w w' : List Bool) (hw : w.length = 2 * k)
    (hw' : w'.length = 2 * k) (he : evens w = evens w') (ho : odds w = odds w') : w = w' := by
  induction k generalizing w w' with
  | zero =>
    have h1 : w = [] := by simpa using hw
    have h2 : w' = [] := by simpa using hw'
    rw [h1, h2]
  | succ k ih =>
    match w, hw, w', hw' with
    | a :: b :: t, hw, a' :: b' :: t', hw' =>
      simp only [evens, odds, List.cons.injEq] at he ho
      rw [he.1, ho.1, ih t t' (by simp at hw; omega) (by simp at hw'; omega) he.2 ho.2]
    | [_], hw, _, _ => simp at hw; omega
    | [], hw, _, _ => simp at hw
    | _ :: _ :: _, _, [_], hw' => simp at hw'; omega
    | _ :: _ :: _, _, [], hw' => simp at hw'

theorem hamming_cons (a b : Bool) (s t : List Bool) :
    hamming (a :: s) (b :: t) = (if a != b then 1 else 0) + hamming s t := by
  cases a <;> cases b <;> simp [hamming, List.filter_cons] <;> omega

theorem hamming_split (k : Nat) (w w' : List Bool) (hw : w.length = 2 * k)
    (hw' : w'.length = 2 * k) :
    hamming w w' = hamming (evens w) (evens w') + hamming (odds w) (odds w') := by
  induction k generalizing w w' with
  | zero =>
    have h1 : w = [] := by simpa using hw
    have h2 : w' = [] := by simpa using hw'
    rw [h1, h2]; rfl
  | succ k ih =>
    match w, hw, w', hw' with
    | a :: b :: t, hw, a' :: b' :: t', hw' =>
      simp only [evens, odds, hamming_cons]
      rw [ih t t' (by simp at hw; omega) (by simp at hw'; omega)]
      omega
    | [_], hw, _, _ => simp at hw; omega
    | [], hw, _, _ => simp at hw
    | _ :: _ :: _, _, [_], hw' => simp at hw'; omega
    | _ :: _ :: _, _, [], hw' => simp at hw'

theorem hamming_self (w : List Bool) : hamming w w = 0 := by
  induction w with
  | nil => rfl
  | cons a t ih => rw [hamming_cons, ih]; cases a <;> rfl

theorem pamSymbol_ok {o : Nat} {c : ℝ} {w : List Bool} {x : ℂ} (h : pamSymbol o c w = .ok x) :
    ∃ s, pam o w = .ok s ∧ x = ⟨(s : ℝ) / Real.sqrt c, 0⟩ := by
  cases hp : pam o w with
  | error e => simp [pamSymbol, hp, bind, Except.bind] at h
  | ok s =>
    simp only [pamSymbol, hp, bind, Except.bind, Except.ok.injEq] at h
    exact ⟨s, rfl, h.symm⟩

theorem qamSymbol_ok {o : Nat} {c : ℝ} {w : List Bool} {x : ℂ} (h : qamSymbol o c w = .ok x) :
    ∃ s t, pam o (evens w) = .ok s ∧ pam o (odds w) = .ok t ∧
      x = ⟨(s : ℝ) / Real.sqrt c, (t : ℝ) / Real.sqrt c⟩ := by
  cases hp : pam o (evens w) with
  | error e => simp [qamSymbol, hp, bind, Except.bind] at h
  | ok s =>
    cases hq : pam o (odds w) with
    | error e => simp [qamSymbol, hp, hq, bind, Except.bind] at h
    | ok t =>
      simp only [qamSymbol, hp, hq, bind, Except.bind, Except.ok.injEq] at h
      exact ⟨s, t, rfl, rfl, h.symm⟩

/-- Squared distance of two points with integer coordinates scaled by `1 / sqrt c`. -/
theorem dist_sq (a b a' b' : ℤ) (c : ℝ) (hc : 0 < c) :
    normSq ((⟨(a : ℝ) / Real.sqrt c, (b : ℝ) / Real.sqrt c⟩ : ℂ) -
      ⟨(a' : ℝ) / Real.sqrt c, (b' : ℝ) / Real.sqrt c⟩) =
      (((a - a') ^ 2 + (b - b') ^ 2 : ℤ) : ℝ) / c := by
  have h := Real.sq_sqrt hc.le
  have hs : Real.sqrt c ≠ 0 := (Real.sqrt_pos.mpr hc).ne'
  simp only [normSq_apply, sub_re, sub_im]
  push_cast
  have e1 : ((a : ℝ) / √c - a' / √c) * (a / √c - a' / √c) + (b / √c - b' / √c) * (b / √c - b' / √c)
      = ((a - a') ^ 2 + (b - b') ^ 2) / (√c) ^ 2 := by
    field_simp
  rw [e1, h]

theorem normOf_pos (order : Nat) (cplx : Bool) : 0 < normOf order cplx := by
  unfold normOf; split <;> norm_num

/-- Integer squared distance of two words, with the facts C14 needs. -/
theorem coords (order : Nat) (cplx : Bool) (hS : Supported order cplx) (w w' : List Bool)
    (hw : w.length = Nat.log2 order) (hw' : w'.length = Nat.log2 order) (x y : ℂ)
    (hx : getSymbol3gpp order cplx w = .ok x) (hy : getSymbol3gpp order cplx w' = .ok y) :
    ∃ q : ℤ, normSq (x - y) = (q : ℝ) / normOf order cplx ∧ (w ≠ w' → 4 ≤ q) ∧
      (q = 4 → hamming w w' = 1) := by
  have key : ∀ {a b : ℤ}, a % 2 = 1 → b % 2 = 1 → a ≠ b → 4 ≤ (a - b) ^ 2 := by
    intro a b ha hb hab
    have : 2 ≤ |a - b| := by
      rcases abs_cases (a - b) with ⟨h, _⟩ | ⟨h, _⟩ <;> omega
    have h2 : |a - b| ^ 2 = (a - b) ^ 2 := sq_abs _
    nlinarith [abs_nonneg (a - b)]
  have two : ∀ {a b : ℤ}, (a - b) ^ 2 = 4 → |a - b| = 2 := by
    intro a b h
    have h2 : |a - b| ^ 2 = (a - b) ^ 2 := sq_abs _
    nlinarith [abs_nonneg (a - b)]
  rcases shape order cplx hS with ⟨o, ho, hl, hn, hs⟩ | ⟨o, ho, hl, hn, hs⟩
  · rw [hs] at hx hy
    obtain ⟨s, h1, rfl⟩ := pamSymbol_ok hx
    obtain ⟨t, h2, rfl⟩ := pamSymbol_ok hy
    obtain ⟨a1, a2, a3, _⟩ := pamFacts o ho w w' (by omega) (by omega) s t h1 h2
    obtain ⟨b1, _⟩ := pamFacts o ho w' w (by omega) (by omega) t s h2 h1
    refine ⟨(s - t) ^ 2, ?_, fun h => key a1 b1 fun e => h (a2 e), fun h => a3 (two h)⟩
    rw [hn]
    have := dist_sq s 0 t 0 (pamNorm o) (pamNorm_pos o)
    simpa using this
  · rw [hs] at hx hy
    obtain ⟨s, u, h1, h1', rfl⟩ := qamSymbol_ok hx
    obtain ⟨t, v, h2, h2', rfl⟩ := qamSymbol_ok hy
    obtain ⟨l1, l2⟩ := length_evens_odds _ w (hw.trans hl)
    obtain ⟨l3, l4⟩ := length_evens_odds _ w' (hw'.trans hl)
    obtain ⟨a1, a2, a3, _⟩ := pamFacts o ho _ _ l1 l3 s t h1 h2
    obtain ⟨b1, _⟩ := pamFacts o ho _ _ l3 l1 t s h2 h1
    obtain ⟨c1, c2, c3, _⟩ := pamFacts o ho _ _ l2 l4 u v h1' h2'
    obtain ⟨d1, _⟩ := pamFacts o ho _ _ l4 l2 v u h2' h1'
    have hp : 0 < 2 * pamNorm o := by have := pamNorm_pos o; linarith
    refine ⟨(s - t) ^ 2 + (u - v) ^ 2, ?_, ?_, ?_⟩
    · rw [hn]; exact dist_sq s u t v _ hp
    · intro h
      by_cases e1 : s = t
      · have e2 : u ≠ v := fun e2 =>
          h (evens_odds_inj _ w w' (hw.trans hl) (hw'.trans hl) (a2 e1) (c2 e2))
        have := key c1 d1 e2
        nlinarith [sq_nonneg (s - t)]
      · have := key a1 b1 e1
        nlinarith [sq_nonneg (u - v)]
    · intro h
      rw [hamming_split _ w w' (hw.trans hl) (hw'.trans hl)]
      by_cases e1 : s = t
      · subst e1
        have : |u - v| = 2 := two (by simpa using h)
        rw [c3 this, a2 rfl, hamming_self]
      · by_cases e2 : u = v
        · subst e2
          have : |s - t| = 2 := two (by simpa using h)
          rw [a3 this, c2 rfl, hamming_self]
        · have h3 := key a1 b1 e1
          have h4 := key c1 d1 e2
          omega

theorem interleave_words (a b : List Bool) (h : b.length = a.length) :
    (interleave a b).length = 2 * a.length ∧ evens (interleave a b) = a ∧
      odds (interleave a b) = b := by
  induction a generalizing b with
  | nil =>
    have : b = [] := by simpa using h
    subst this; exact ⟨rfl, rfl, rfl⟩
  | cons x a ih =>
    cases b with
    | nil => simp at h
    | cons y b =>
      obtain ⟨h1, h2, h3⟩ := ih b (by simpa using h)
      simp [interleave, evens, odds, h1, h2, h3]
      omega

/-! ### C14 -/

/-- C14: every bit word of a supported constellation has a symbol. -/
theorem C14_total (order : Nat) (cplx : Bool) (hS : Supported order cplx) (w : List Bool)
    (hw : w.length = Nat.log2 order) : ∃ x, getSymbol3gpp order cplx w = .ok x := by
  have hn := normOf_pos order cplx
  have h1 : 0 < 1 / Real.sqrt (normOf order cplx) := by positivity
  obtain ⟨x, _, h, _⟩ := C13_symbol order cplx hS w hw 0 (by simpa using h1)
    (fun _ _ => by simpa using h1) 1 one_pos
  exact ⟨x, h⟩

/-- C14: distinct words are at least `2 / sqrt norm` apart, in particular distinct. -/
theorem C14_min_distance (order : Nat) (cplx : Bool) (hS : Supported order cplx) (w w' : List Bool)
    (hw : w.length = Nat.log2 order) (hw' : w'.length = Nat.log2 order) (hne : w ≠ w') (x y : ℂ)
    (hx : getSymbol3gpp order cplx w = .ok x) (hy : getSymbol3gpp order cplx w' = .ok y) :
    2 / Real.sqrt (normOf order cplx) ≤ ‖x - y‖ := by
  obtain ⟨q, h1, h2, _⟩ := coords order cplx hS w w' hw hw' x y hx hy
  have hn := normOf_pos order cplx
  have h4 : (4 : ℝ) ≤ q := by exact_mod_cast h2 hne
  have hsq : (2 / Real.sqrt (normOf order cplx)) ^ 2 = 4 / normOf order cplx := by
    rw [div_pow, Real.sq_sqrt hn.le]; norm_num
  have : (2 / Real.sqrt (normOf order cplx)) ^ 2 ≤ ‖x - y‖ ^ 2 := by
    rw [hsq, Complex.sq_norm, h1]
    gcongr
  exact le_of_sq_le_sq this (norm_nonneg _)

/-- C14: the mapping is injective. -/
theorem C14_injective (order : Nat) (cplx : Bool) (hS : Supported order cplx) (w w' : List Bool)
    (hw : w.length = Nat.log2 order) (hw' : w'.length = Nat.log2 order) (x : ℂ)
    (hx : getSymbol3gpp order cplx w = .ok x) (hy : getSymbol3gpp order cplx w' = .ok x) : w = w' := by
  by_contra hne
  have h := C14_min_distance order cplx hS w w' hw hw' hne x x hx hy
  have hn := normOf_pos order cplx
  have h1 : 0 < 2 / Real.sqrt (normOf order cplx) := by positivity
  simp at h
  linarith

/-- Some two symbols are at distance exactly `2 / sqrt norm`. -/
theorem near_pair (order : Nat) (cplx : Bool) (hS : Supported order cplx) :
    ∃ u u' : List Bool, u.length = Nat.log2 order ∧ u'.length = Nat.log2 order ∧ u ≠ u' ∧
      ∃ p p' : ℂ, getSymbol3gpp order cplx u = .ok p ∧ getSymbol3gpp order cplx u' = .ok p' ∧
        normSq (p - p') = 4 / normOf order cplx := by
  have pairs : ∀ o, IsPam o → ∃ u u' : List Bool, u.length = Nat.log2 o ∧ u'.length = Nat.log2 o ∧
      ∃ s t : ℤ, pam o u = .ok s ∧ pam o u' = .ok t ∧ s - t = 2 := by
    intro o ho
    rcases ho with rfl | rfl | rfl | rfl
    · exact ⟨[false], [true], rfl, rfl, 1, -1, rfl, rfl, rfl⟩
    · exact ⟨[false, false], [true, false], rfl, rfl, 1, -1, rfl, rfl, rfl⟩
    · exact ⟨[false, false, true], [true, false, true], by decide, by decide, 1, -1, rfl, rfl,
        by decide⟩
    · exact ⟨[false, false, true, true], [true, false, true, true], by decide, by decide,
        1, -1, rfl, rfl, by decide⟩
  rcases shape order cplx hS with ⟨o, ho, hl, hn, hs⟩ | ⟨o, ho, hl, hn, hs⟩
  · obtain ⟨u, u', l1, l2, s, t, h1, h2, h3⟩ := pairs o ho
    refine ⟨u, u', by omega, by omega, ?_, ⟨(s : ℝ) / Real.sqrt (pamNorm o), 0⟩,
      ⟨(t : ℝ) / Real.sqrt (pamNorm o), 0⟩, ?_, ?_, ?_⟩
    · rintro rfl
      rw [h1] at h2
      cases h2
      omega
    · rw [hs]; simp [pamSymbol, h1, bind, Except.bind]
    · rw [hs]; simp [pamSymbol, h2, bind, Except.bind]
    · have := dist_sq s 0 t 0 (pamNorm o) (pamNorm_pos o)
      rw [h3] at this
      rw [hn]
      norm_num at this ⊢
      exact this
  · obtain ⟨u, u', l1, l2, s, t, h1, h2, h3⟩ := pairs o ho
    obtain ⟨i1, i2, i3⟩ := interleave_words u u (by omega)
    obtain ⟨j1, j2, j3⟩ := interleave_words u' u (by omega)
    have hp : 0 < 2 * pamNorm o := by have := pamNorm_pos o; linarith
    refine ⟨interleave u u, interleave u' u, by omega, by omega, ?_,
      ⟨(s : ℝ) / Real.sqrt (2 * pamNorm o), (s : ℝ) / Real.sqrt (2 * pamNorm o)⟩,
      ⟨(t : ℝ) / Real.sqrt (2 * pamNorm o), (s : ℝ) / Real.sqrt (2 * pamNorm o)⟩, ?_, ?_, ?_⟩
    · intro e
      have : u = u' := by rw [← i2, e, j2]
      subst this
      rw [h1] at h2
      cases h2
      omega
    · rw [hs]; simp only [qamSymbol, i2, i3, h1, bind, Except.bind]
    · rw [hs]; simp only [qamSymbol, j2, j3, h1, h2, bind, Except.bind]
    · rw [hn, dist_sq s s t s _ hp, h3]
      norm_num

/-- C14: Gray labelling. Whenever two symbols of a constellation are as close to each other as any two
of its symbols, their words differ in exactly one bit. -/
theorem C14_gray (order : Nat) (cplx : Bool) (hS : Supported order cplx) (w w' : List Bool)
    (hw : w.length = Nat.log2 order) (hw' : w'.length = Nat.log2 order) (hne : w ≠ w') (x y : ℂ)
    (hx : getSymbol3gpp order cplx w = .ok x) (hy : getSymbol3gpp order cplx w' = .ok y)
    (hmin : ∀ u u' : List Bool, u.length = Nat.log2 order → u'.length = Nat.log2 order → u ≠ u' →
      ∀ p q : ℂ, getSymbol3gpp order cplx u = .ok p → getSymbol3gpp order cplx u' = .ok q →
        ‖x - y‖ ≤ ‖p - q‖) :
    hamming w w' = 1 := by
  obtain ⟨q, h1, h2, h3⟩ := coords order cplx hS w w' hw hw' x y hx hy
  apply h3
  obtain ⟨u, u', l1, l2, l3, p, p', hp, hp', hd⟩ := near_pair order cplx hS
  have h := hmin u u' l1 l2 l3 p p' hp hp'
  have hn := normOf_pos order cplx
  have hh : ‖x - y‖ ^ 2 ≤ ‖p - p'‖ ^ 2 := by gcongr
  rw [Complex.sq_norm, Complex.sq_norm, h1, hd, div_le_div_iff_of_pos_right hn] at hh
  have : q ≤ 4 := by exact_mod_cast hh
  have := h2 hne
  omega

theorem reshape_flatten {α : Type} (c : Nat) (L : List (List α)) (h : ∀ l ∈ L, l.length = c) :
    Np.reshape L.length c L.flatten = .ok L := by
  have hl := Np.length_flatten_uniform c L h
  rw [Np.reshape, if_pos hl]
  congr 1
  apply List.ext_getElem?
  intro i
  by_cases hi : i < L.length
  · rw [List.getElem?_map, List.getElem?_range hi, Option.map_some, List.getElem?_eq_getElem hi]
    congr 1
    apply List.ext_getElem?
    intro j
    have hc : L[i].length = c := h _ (List.getElem_mem hi)
    by_cases hj : j < c
    · rw [Np.getElem?_take_drop _ _ _ _ hj, Np.getElem?_flatten_uniform c L h i j hj,
        List.getElem?_eq_getElem hi]
      rfl
    · rw [List.getElem?_eq_none (by simp; omega), List.getElem?_eq_none (by omega)]
  · rw [List.getElem?_eq_none (by simp; omega), List.getElem?_eq_none (by omega)]

/-- Integer energy of a word. -/
def energy (quad : Bool) (o : Nat) (w : List Bool) : ℤ :=
  let amp := fun u => match pam o u with
    | .ok s => s
    | .error _ => 0
  if quad then amp (evens w) ^ 2 + amp (odds w) ^ 2 else amp w ^ 2

theorem symbols_energy (order : Nat) (cplx : Bool) (quad : Bool) (o : Nat) (c : ℝ) (hc : 0 < c)
    (hs : ∀ w x, getSymbol3gpp order cplx w = .ok x → normSq x = (energy quad o w : ℝ) / c)
    (ws : List (List Bool)) (hok : ∀ w ∈ ws, ∃ x, getSymbol3gpp order cplx w = .ok x) :
    ∃ xs, ws.mapM (getSymbol3gpp order cplx) = .ok xs ∧ xs.length = ws.length ∧
      (xs.map normSq).sum = ((ws.map (energy quad o)).sum : ℤ) / c := by
  induction ws with
  | nil => exact ⟨[], rfl, rfl, by simp⟩
  | cons w ws ih =>
    obtain ⟨x, hx⟩ := hok w (by simp)
    obtain ⟨xs, h1, h2, h3⟩ := ih fun w' hw' => hok w' (by simp [hw'])
    refine ⟨x :: xs, ?_, by simp [h2], ?_⟩
    · simp [List.mapM_cons, hx, h1, bind, Except.bind, pure, Except.pure]
    · simp only [List.map_cons, List.sum_cons, h3, hs w x hx]
      push_cast
      rw [add_div]

theorem energy_real (o : Nat) (c : ℝ) (hc : 0 < c) (w : List Bool) (x : ℂ)
    (h : pamSymbol o c w = .ok x) : normSq x = (energy false o w : ℝ) / c := by
  obtain ⟨s, h1, rfl⟩ := pamSymbol_ok h
  have := dist_sq s 0 0 0 c hc
  simp only [energy, h1, Bool.false_eq_true, if_false]
  simpa [normSq_apply] using this

theorem energy_quad (o : Nat) (c : ℝ) (hc : 0 < c) (w : List Bool) (x : ℂ)
    (h : qamSymbol o c w = .ok x) : normSq x = (energy true o w : ℝ) / c := by
  obtain ⟨s, t, h1, h2, rfl⟩ := qamSymbol_ok h
  have := dist_sq s t 0 0 c hc
  simp only [energy, h1, h2, if_true]
  simpa [normSq_apply] using this

theorem mean_of (order : Nat) (cplx : Bool) (hS : Supported order cplx) (quad : Bool) (o : Nat)
    (c : ℝ) (N : ℤ) (hcN : c = N) (hc : 0 < c)
    (hs : ∀ w x, getSymbol3gpp order cplx w = .ok x → normSq x = (energy quad o w : ℝ) / c)
    (hsum : (((List.range order).map (wordOf (Nat.log2 order))).map (energy quad o)).sum = order * N) :
    ∃ xs, getMapping3gpp order cplx = .ok xs ∧ xs.length = order ∧ (xs.map normSq).sum / order = 1 := by
  have hlen : ∀ w ∈ (List.range order).map (wordOf (Nat.log2 order)), w.length = Nat.log2 order := by
    intro w hw
    simp only [List.mem_map] at hw
    obtain ⟨i, _, rfl⟩ := hw
    simp [wordOf]
  obtain ⟨xs, h1, h2, h3⟩ := symbols_energy order cplx quad o c hc hs
    ((List.range order).map (wordOf (Nat.log2 order)))
    (fun w hw => C14_total order cplx hS w (hlen w hw))
  have hr := reshape_flatten (Nat.log2 order) _ hlen
  have hn := log2_pos order cplx hS
  have hord : 0 < order := by
    rcases hS with ⟨_, h⟩ | ⟨_, h⟩ <;> omega
  have hword : words (Nat.log2 order) ((List.range order).flatMap (wordOf (Nat.log2 order))) =
      .ok ((List.range order).map (wordOf (Nat.log2 order))) := by
    rw [List.flatMap_def]
    unfold words
    rw [Np.length_flatten_uniform _ _ hlen, Nat.mul_div_cancel _ hn]
    exact hr
  refine ⟨xs, ?_, by simpa using h2, ?_⟩
  · simp only [getMapping3gpp, getSymbols3gpp, hword, bind, Except.bind, h1]
  · rw [h3, hsum, hcN]
    push_cast
    have h1 : (N : ℝ) ≠ 0 := by rw [← hcN]; exact hc.ne'
    have h2 : (order : ℝ) ≠ 0 := by exact_mod_cast hord.ne'
    field_simp

/-- C14: the symbols listed by `get_mapping`, one per word, have mean energy one. -/
theorem C14_unit_energy (order : Nat) (cplx : Bool) (hS : Supported order cplx) :
    ∃ xs, getMapping3gpp order cplx = .ok xs ∧ xs.length = order ∧
      (xs.map normSq).sum / order = 1 := by
  have hS' := hS
  rcases hS with ⟨rfl, h⟩ | ⟨rfl, h⟩
  · rcases h with rfl | rfl | rfl | rfl | rfl
    · exact mean_of _ _ hS' false 2 1 1 (by norm_num) (by norm_num)
        (fun w x h => energy_real 2 1 one_pos w x (by simpa [getSymbol3gpp] using h)) (by decide +kernel)
    · exact mean_of _ _ hS' true 2 2 2 (by norm_num) (by norm_num)
        (fun w x h => energy_quad 2 2 (by norm_num) w x (by simpa [getSymbol3gpp] using h))
        (by decide +kernel)
    · exact mean_of _ _ hS' true 4 10 10 (by norm_num) (by norm_num)
        (fun w x h => energy_quad 4 10 (by norm_num) w x (by simpa [getSymbol3gpp] using h))
        (by decide +kernel)
    · exact mean_of _ _ hS' true 8 42 42 (by norm_num) (by norm_num)
        (fun w x h => energy_quad 8 42 (by norm_num) w x (by simpa [getSymbol3gpp] using h))
        (by decide +kernel)
    · exact mean_of _ _ hS' true 16 170 170 (by norm_num) (by norm_num)
        (fun w x h => energy_quad 16 170 (by norm_num) w x (by simpa [getSymbol3gpp] using h))
        (by decide +kernel)
  · rcases h with rfl | rfl | rfl | rfl
    · exact mean_of _ _ hS' false 2 1 1 (by norm_num) (by norm_num)
        (fun w x h => energy_real 2 1 one_pos w x (by simpa [getSymbol3gpp] using h)) (by decide +kernel)
    · exact mean_of _ _ hS' false 4 5 5 (by norm_num) (by norm_num)
        (fun w x h => energy_real 4 5 (by norm_num) w x (by simpa [getSymbol3gpp] using h))
        (by decide +kernel)
    · exact mean_of _ _ hS' false 8 21 21 (by norm_num) (by norm_num)
        (fun w x h => energy_real 8 21 (by norm_num) w x (by simpa [getSymbol3gpp] using h))
        (by decide +kernel)
    · exact mean_of _ _ hS' false 16 85 85 (by norm_num) (by norm_num)
        (fun w x h => energy_real 16 85 (by norm_num) w x (by simpa [getSymbol3gpp] using h))
        (by decide +kernel)

/-- Non-vacuity: 256-QAM is supported, and two of its words have symbols. -/
example : Supported 256 true ∧ ∃ x, getSymbol3gpp 256 true (wordOf 8 173) = .ok x :=
  ⟨Or.inl ⟨rfl, by decide⟩, C14_total 256 true (Or.inl ⟨rfl, by decide⟩) _ (by decide)⟩

/-- C13 with noise measured by its modulus: for every supported constellation, noise below half the
distance of every pair of distinct symbols leaves the hard decision correct. -/
theorem C13_half_distance (order : Nat) (cplx : Bool) (hS : Supported order cplx) (bits : List Bool)
    (hb : bits.length % Nat.log2 order = 0) (es : List ℂ)
    (hl : es.length = bits.length / Nat.log2 order)
    (hes : ∀ e ∈ es, ∀ u u' : List Bool, u.length = Nat.log2 order → u'.length = Nat.log2 order →
      u ≠ u' → ∀ p q : ℂ, getSymbol3gpp order cplx u = .ok p → getSymbol3gpp order cplx u' = .ok q →
        ‖e‖ < ‖p - q‖ / 2)
    (v : ℝ) (hv : 0 < v) :
    ∃ xs, getSymbols3gpp order cplx bits = .ok xs ∧
      detectHard3gpp order cplx v (List.zipWith (· + ·) xs es) = .ok bits := by
  obtain ⟨u, u', l1, l2, l3, p, p', hp, hp', hd⟩ := near_pair order cplx hS
  have hn := normOf_pos order cplx
  have hd' : ‖p - p'‖ = 2 / Real.sqrt (normOf order cplx) := by
    have h1 : ‖p - p'‖ ^ 2 = (2 / Real.sqrt (normOf order cplx)) ^ 2 := by
      rw [Complex.sq_norm, hd, div_pow, Real.sq_sqrt hn.le]; norm_num
    have h2 : 0 ≤ 2 / Real.sqrt (normOf order cplx) := by positivity
    rwa [sq_eq_sq₀ (norm_nonneg _) h2] at h1
  have small : ∀ e ∈ es, SmallNoise order cplx e := by
    intro e he
    have h := hes e he u u' l1 l2 l3 p p' hp hp'
    rw [hd'] at h
    have h2 : 2 / Real.sqrt (normOf order cplx) / 2 = 1 / Real.sqrt (normOf order cplx) := by ring
    rw [h2] at h
    exact ⟨(Complex.abs_re_le_norm e).trans_lt h, fun _ _ => (Complex.abs_im_le_norm e).trans_lt h⟩
  obtain ⟨xs, _, h1, _, _, _, h2⟩ := C13_stream order cplx hS bits hb es hl small v hv
  exact ⟨xs, h1, h2⟩

end Verif.Mapping
