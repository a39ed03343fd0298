import Verif.Mapping.Llr

/-!
# C13: noise-tolerant demapping of the 3GPP constellations
-/

namespace Verif.Mapping

open Complex

/-- Mean energy of the unscaled PAM alphabet, which is also the scaling inside `get_llr_3gpp`. -/
def pamNorm : Nat → ℝ
  | 4 => 5
  | 8 => 21
  | 16 => 85
  | _ => 1

/-- The PAM orders. -/
def IsPam (o : Nat) : Prop := o = 2 ∨ o = 4 ∨ o = 8 ∨ o = 16

theorem pamNorm_pos (o : Nat) : 0 < pamNorm o := by
  unfold pamNorm; split <;> norm_num

theorem pam_ok (o : Nat) (ho : IsPam o) (w : List Bool) (hw : w.length = Nat.log2 o) :
    ∃ s, pam o w = .ok s := by
  rcases ho with rfl | rfl | rfl | rfl
  · rw [show Nat.log2 2 = 1 by decide] at hw
    match w, hw with
    | [b0], _ => exact ⟨_, rfl⟩
  · rw [show Nat.log2 4 = 2 by decide] at hw
    match w, hw with
    | [b0, b1], _ => exact ⟨_, rfl⟩
  · rw [show Nat.log2 8 = 3 by decide] at hw
    match w, hw with
    | [b0, b1, b2], _ => exact ⟨_, rfl⟩
  · rw [show Nat.log2 16 = 4 by decide] at hw
    match w, hw with
    | [b0, b1, b2, b3], _ => exact ⟨_, rfl⟩

theorem agrees_div {x : ℝ} {b : Bool} {c : ℝ} (hc : 0 < c) (h : Agrees x b) : Agrees (x / c) b := by
  cases b
  · simp only [Agrees, Bool.false_eq_true, if_false] at h ⊢
    exact div_neg_of_neg_of_pos h hc
  · simp only [Agrees, if_true] at h ⊢
    exact div_pos h hc

theorem forall₂_div {l : List ℝ} {w : List Bool} {c : ℝ} (hc : 0 < c)
    (h : List.Forall₂ Agrees l w) : List.Forall₂ Agrees (l.map (· / c)) w := by
  induction h with
  | nil => exact .nil
  | cons h _ ih => exact .cons (agrees_div hc h) ih

theorem llr3gpp_agrees (o : Nat) (ho : IsPam o) (w : List Bool) (hw : w.length = Nat.log2 o) (s : ℤ)
    (hs : pam o w = .ok s) (cplx : Bool) (x v : ℝ) (hv : 0 < v)
    (hx : |x * (if cplx then Real.sqrt 2 else 1) * Real.sqrt (pamNorm o) - s| < 1) :
    ∃ l, llr3gpp o x v cplx = .ok l ∧ List.Forall₂ Agrees l w := by
  have hr : (if cplx = true then x * Real.sqrt 2 else x) =
      x * (if cplx then Real.sqrt 2 else 1) := by
    split <;> simp
  have half : ∀ l : List ℝ, List.Forall₂ Agrees l w →
      List.Forall₂ Agrees (if cplx = true then l.map (· / 2) else l) w := by
    intro l hl
    split
    · exact forall₂_div (by norm_num) hl
    · exact hl
  rcases ho with rfl | rfl | rfl | rfl
  · rw [show Nat.log2 2 = 1 by decide] at hw
    match w, hw with
    | [b0], _ =>
      refine ⟨_, rfl, half _ (.cons ?_ .nil)⟩
      simp only [hr]
      simp only [pamNorm, Real.sqrt_one, mul_one] at hx
      obtain ⟨h1, h2⟩ := abs_lt.mp hx
      revert hs
      cases b0 <;> intro hs <;>
        (simp only [pam, bit, Except.ok.injEq, if_true, if_false, Bool.false_eq_true] at hs
         norm_num at hs
         subst hs
         norm_num at h1 h2
         simp only [Agrees, if_true, if_false, Bool.false_eq_true]
         first
           | exact div_agrees_pos hv (by linarith)
           | exact div_agrees_neg hv (by linarith))
  · rw [show Nat.log2 4 = 2 by decide] at hw
    match w, hw with
    | [b0, b1], _ =>
      refine ⟨_, rfl, half _ ?_⟩
      simp only [hr]
      obtain ⟨h0, h1⟩ := llr4_agrees b0 b1 s hs _ v hv hx
      exact forall₂_div (by norm_num) (.cons h0 (.cons h1 .nil))
  · rw [show Nat.log2 8 = 3 by decide] at hw
    match w, hw with
    | [b0, b1, b2], _ =>
      refine ⟨_, rfl, half _ ?_⟩
      simp only [hr]
      obtain ⟨h0, h1, h2⟩ := llr8_agrees b0 b1 b2 s hs _ v hv hx
      exact forall₂_div (by norm_num) (.cons h0 (.cons h1 (.cons h2 .nil)))
  · rw [show Nat.log2 16 = 4 by decide] at hw
    match w, hw with
    | [b0, b1, b2, b3], _ =>
      refine ⟨_, rfl, half _ ?_⟩
      simp only [hr]
      obtain ⟨h0, h1, h2, h3⟩ := llr16_agrees b0 b1 b2 b3 s hs _ v hv hx
      exact forall₂_div (by norm_num) (.cons h0 (.cons h1 (.cons h2 (.cons h3 .nil))))

theorem scaled (s : ℤ) (e c : ℝ) (hc : 0 < c) (he : |e| < 1 / Real.sqrt c) :
    |((s : ℝ) / Real.sqrt c + e) * Real.sqrt c - s| < 1 := by
  have hsq : 0 < Real.sqrt c := Real.sqrt_pos.mpr hc
  have : ((s : ℝ) / Real.sqrt c + e) * Real.sqrt c - s = e * Real.sqrt c := by
    field_simp
    ring
  rw [this, abs_mul, abs_of_pos hsq]
  rwa [lt_div_iff₀ hsq] at he

theorem pam_symbol (o : Nat) (ho : IsPam o) (w : List Bool) (hw : w.length = Nat.log2 o)
    (e : ℂ) (he : |e.re| < 1 / Real.sqrt (pamNorm o)) (v : ℝ) (hv : 0 < v) :
    ∃ x l, pamSymbol o (pamNorm o) w = .ok x ∧ llr3gpp o (x + e).re v false = .ok l ∧
      List.Forall₂ Agrees l w := by
  obtain ⟨s, hs⟩ := pam_ok o ho w hw
  have h1 : pamSymbol o (pamNorm o) w = .ok ⟨(s : ℝ) / Real.sqrt (pamNorm o), 0⟩ := by
    simp [pamSymbol, hs, bind, Except.bind]
  obtain ⟨l, hl, hf⟩ := llr3gpp_agrees o ho w hw s hs false
    ((s : ℝ) / Real.sqrt (pamNorm o) + e.re) v hv (by
      simpa using scaled s e.re (pamNorm o) (pamNorm_pos o) he)
  exact ⟨_, l, h1, by simpa using hl, hf⟩

theorem length_evens_odds (k : Nat) (w : List Bool) (hw : w.length = 2 * k) :
    (evens w).length = k ∧ (odds w).length = k := by
  induction k generalizing w with
  | zero =>
    have : w = [] := by simpa using hw
    subst this; exact ⟨rfl, rfl⟩
  | succ k ih =>
    match w, hw with
    | a :: b :: t, hw =>
      obtain ⟨h1, h2⟩ := ih t (by simp at hw; omega)
      simp [evens, odds, h1, h2]
    | [_], hw => simp at hw; omega
    | [], hw => simp at hw

theorem forall₂_interleave (k : Nat) (w : List Bool) (hw : w.length = 2 * k) (a b : List ℝ)
    (ha : List.Forall₂ Agrees a (evens w)) (hb : List.Forall₂ Agrees b (odds w)) :
    List.Forall₂ Agrees (interleave a b) w := by
  induction k generalizing w a b with
  | zero =>
    have : w = [] := by simpa using hw
    subst this
    simp only [evens] at ha
    cases ha
    exact .nil
  | succ k ih =>
    match w, hw with
    | x :: y :: t, hw =>
      simp only [evens, odds] at ha hb
      cases ha with
      | cons ha1 ha2 =>
        cases hb with
        | cons hb1 hb2 =>
          exact .cons ha1 (.cons hb1 (ih t (by simp at hw; omega) _ _ ha2 hb2))
    | [_], hw => simp at hw; omega
    | [], hw => simp at hw

theorem qam_symbol (o : Nat) (ho : IsPam o) (w : List Bool) (hw : w.length = 2 * Nat.log2 o)
    (e : ℂ) (he : |e.re| < 1 / Real.sqrt (2 * pamNorm o))
    (hi : |e.im| < 1 / Real.sqrt (2 * pamNorm o)) (v : ℝ) (hv : 0 < v) :
    ∃ x l, qamSymbol o (2 * pamNorm o) w = .ok x ∧ qamLlr o (x + e) v = .ok l ∧
      List.Forall₂ Agrees l w := by
  obtain ⟨hw1, hw2⟩ := length_evens_odds _ w hw
  obtain ⟨s, hs⟩ := pam_ok o ho _ hw1
  obtain ⟨t, ht⟩ := pam_ok o ho _ hw2
  have hp : 0 < 2 * pamNorm o := by have := pamNorm_pos o; linarith
  have hsq : Real.sqrt (2 * pamNorm o) = Real.sqrt 2 * Real.sqrt (pamNorm o) :=
    Real.sqrt_mul (by norm_num) _
  have h1 : qamSymbol o (2 * pamNorm o) w =
      .ok ⟨(s : ℝ) / Real.sqrt (2 * pamNorm o), (t : ℝ) / Real.sqrt (2 * pamNorm o)⟩ := by
    simp [qamSymbol, hs, ht, bind, Except.bind]
  have e1 := scaled s e.re _ hp he
  have e2 := scaled t e.im _ hp hi
  obtain ⟨l, hl, hf⟩ := llr3gpp_agrees o ho _ hw1 s hs true
    ((s : ℝ) / Real.sqrt (2 * pamNorm o) + e.re) v hv (by
      simp only [if_true, mul_assoc, ← hsq]; exact e1)
  obtain ⟨m, hm, hg⟩ := llr3gpp_agrees o ho _ hw2 t ht true
    ((t : ℝ) / Real.sqrt (2 * pamNorm o) + e.im) v hv (by
      simp only [if_true, mul_assoc, ← hsq]; exact e2)
  refine ⟨_, interleave l m, h1, ?_, forall₂_interleave _ w hw l m hf hg⟩
  simp only [qamLlr, Complex.add_re, Complex.add_im, hl, hm, bind, Except.bind]

/-! ### C13 -/

/-- C13, one symbol: for every supported constellation, every bit word, every noise value whose real
(and, for complex constellations, imaginary) part is below half the minimum distance, and every
positive noise variance, each soft value is positive for a one and negative for a zero. -/
theorem C13_symbol (order : Nat) (cplx : Bool) (hS : Supported order cplx) (w : List Bool)
    (hw : w.length = Nat.log2 order) (e : ℂ)
    (he : |e.re| < 1 / Real.sqrt (normOf order cplx))
    (hi : cplx = true → order ≠ 2 → |e.im| < 1 / Real.sqrt (normOf order cplx))
    (v : ℝ) (hv : 0 < v) :
    ∃ x l, getSymbol3gpp order cplx w = .ok x ∧ detectLlr order cplx (x + e) v = .ok l ∧
      List.Forall₂ Agrees l w := by
  have q : ∀ o, IsPam o → w.length = 2 * Nat.log2 o → normOf order cplx = 2 * pamNorm o →
      cplx = true → order ≠ 2 →
      ∃ x l, qamSymbol o (2 * pamNorm o) w = .ok x ∧ qamLlr o (x + e) v = .ok l ∧
        List.Forall₂ Agrees l w := by
    intro o ho hwo hn hc h2
    have hi := hi hc h2
    rw [hn] at he hi
    exact qam_symbol o ho w hwo e he hi v hv
  have p : ∀ o, IsPam o → w.length = Nat.log2 o → normOf order cplx = pamNorm o →
      ∃ x l, pamSymbol o (pamNorm o) w = .ok x ∧ llr3gpp o (x + e).re v false = .ok l ∧
        List.Forall₂ Agrees l w := by
    intro o ho hwo hn
    rw [hn] at he
    exact pam_symbol o ho w hwo e he v hv
  rcases hS with ⟨rfl, h⟩ | ⟨rfl, h⟩
  · rcases h with rfl | rfl | rfl | rfl | rfl
    · simpa [getSymbol3gpp, detectLlr, pamNorm] using p 2 (by unfold IsPam; omega) hw rfl
    · have := q 2 (by unfold IsPam; omega) hw (by norm_num [normOf, pamNorm]) rfl (by decide)
      simpa [getSymbol3gpp, detectLlr, pamNorm] using this
    · have := q 4 (by unfold IsPam; omega) hw (by norm_num [normOf, pamNorm]) rfl (by decide)
      norm_num [pamNorm] at this
      simpa [getSymbol3gpp, detectLlr] using this
    · have := q 8 (by unfold IsPam; omega) hw (by norm_num [normOf, pamNorm]) rfl (by decide)
      norm_num [pamNorm] at this
      simpa [getSymbol3gpp, detectLlr] using this
    · have := q 16 (by unfold IsPam; omega) hw (by norm_num [normOf, pamNorm]) rfl (by decide)
      norm_num [pamNorm] at this
      simpa [getSymbol3gpp, detectLlr] using this
  · rcases h with rfl | rfl | rfl | rfl
    · simpa [getSymbol3gpp, detectLlr, pamNorm] using p 2 (by unfold IsPam; omega) hw rfl
    · simpa [getSymbol3gpp, detectLlr, pamNorm] using p 4 (by unfold IsPam; omega) hw rfl
    · simpa [getSymbol3gpp, detectLlr, pamNorm] using p 8 (by unfold IsPam; omega) hw rfl
    · simpa [getSymbol3gpp, detectLlr, pamNorm] using p 16 (by unfold IsPam; omega) hw rfl

theorem hard_of_agrees {l : List ℝ} {w : List Bool} (h : List.Forall₂ Agrees l w) : hard l = w := by
  induction h with
  | nil => rfl
  | @cons a b l w h1 _ ih =>
    have : decide (0 < a) = b := by
      cases b
      · simp only [Agrees, Bool.false_eq_true, if_false] at h1
        simp only [decide_eq_false_iff_not]
        linarith
      · simpa [Agrees] using h1
    simp only [hard, List.map_cons] at ih ⊢
    rw [ih]
    congr 1

/-- The noise tolerated in one symbol. -/
def SmallNoise (order : Nat) (cplx : Bool) (e : ℂ) : Prop :=
  |e.re| < 1 / Real.sqrt (normOf order cplx) ∧
    (cplx = true → order ≠ 2 → |e.im| < 1 / Real.sqrt (normOf order cplx))

theorem stream_words (order : Nat) (cplx : Bool) (hS : Supported order cplx) (v : ℝ) (hv : 0 < v)
    (ws : List (List Bool)) (hws : ∀ w ∈ ws, w.length = Nat.log2 order) (es : List ℂ)
    (hl : es.length = ws.length) (hes : ∀ e ∈ es, SmallNoise order cplx e) :
    ∃ xs ls, ws.mapM (getSymbol3gpp order cplx) = .ok xs ∧ xs.length = ws.length ∧
      (List.zipWith (· + ·) xs es).mapM (fun y => detectLlr order cplx y v) = .ok ls ∧
      List.Forall₂ Agrees ls.flatten ws.flatten := by
  induction ws generalizing es with
  | nil => exact ⟨[], [], rfl, rfl, rfl, .nil⟩
  | cons w ws ih =>
    cases es with
    | nil => simp at hl
    | cons e es =>
      obtain ⟨x, l, h1, h2, h3⟩ := C13_symbol order cplx hS w (hws w (by simp)) e
        (hes e (by simp)).1 (hes e (by simp)).2 v hv
      obtain ⟨xs, ls, h4, h5, h6, h7⟩ := ih (fun w' hw' => hws w' (by simp [hw'])) es
        (by simpa using hl) (fun e' he' => hes e' (by simp [he']))
      refine ⟨x :: xs, l :: ls, ?_, by simp [h5], ?_, ?_⟩
      · simp [List.mapM_cons, h1, h4, bind, Except.bind, pure, Except.pure]
      · simp [List.mapM_cons, h2, h6, bind, Except.bind, pure, Except.pure]
      · simp only [List.flatten_cons]
        exact List.rel_append h3 h7

theorem log2_pos (order : Nat) (cplx : Bool) (hS : Supported order cplx) : 0 < Nat.log2 order := by
  rcases hS with ⟨_, h⟩ | ⟨_, h⟩
  · rcases h with rfl | rfl | rfl | rfl | rfl <;> decide
  · rcases h with rfl | rfl | rfl | rfl <;> decide

/-- C13, streams: for every supported constellation, every bit stream whose length is a multiple of
the bits per symbol and every noise vector with components below half the minimum distance, the soft
outputs have the right sign and the hard decision returns the transmitted bit stream. Noise-free
operation is the case of zero noise. -/
theorem C13_stream (order : Nat) (cplx : Bool) (hS : Supported order cplx) (bits : List Bool)
    (hb : bits.length % Nat.log2 order = 0) (es : List ℂ)
    (hl : es.length = bits.length / Nat.log2 order) (hes : ∀ e ∈ es, SmallNoise order cplx e)
    (v : ℝ) (hv : 0 < v) :
    ∃ xs soft, getSymbols3gpp order cplx bits = .ok xs ∧ xs.length = bits.length / Nat.log2 order ∧
      detectSoft3gpp order cplx v (List.zipWith (· + ·) xs es) = .ok soft ∧
      List.Forall₂ Agrees soft bits ∧
      detectHard3gpp order cplx v (List.zipWith (· + ·) xs es) = .ok bits := by
  have hn := log2_pos order cplx hS
  set n := Nat.log2 order with hndef
  have hlen : bits.length = bits.length / n * n := by
    have := Nat.div_add_mod bits.length n
    rw [hb] at this
    rw [Nat.mul_comm]; omega
  let ws := (List.range (bits.length / n)).map fun i => (bits.drop (i * n)).take n
  have hw : words n bits = .ok ws := by
    simp only [words, Np.reshape]
    rw [if_pos hlen]
  have hwl : ws.length = bits.length / n := by simp [ws]
  have hws : ∀ w ∈ ws, w.length = n := by
    intro w hw
    simp only [ws, List.mem_map, List.mem_range] at hw
    obtain ⟨i, hi, rfl⟩ := hw
    simp only [List.length_take, List.length_drop]
    have : (i + 1) * n ≤ bits.length / n * n := Nat.mul_le_mul_right n hi
    have h2 : (i + 1) * n = i * n + n := by ring
    omega
  have hflat : ws.flatten = bits := by
    apply List.ext_getElem?
    intro p
    have hdm : p = p / n * n + p % n := by
      have := Nat.div_add_mod p n
      rw [Nat.mul_comm] at this; omega
    rw [hdm, Np.getElem?_flatten_uniform n ws hws (p / n) (p % n) (Nat.mod_lt _ hn)]
    by_cases hp : p / n < bits.length / n
    · have : ws[p / n]? = some ((bits.drop (p / n * n)).take n) := by
        simp [ws, hp]
      rw [this]
      simp only [Option.bind_some]
      rw [Np.getElem?_take_drop _ _ _ _ (Nat.mod_lt _ hn)]
    · have h1 : ws[p / n]? = none := by
        rw [List.getElem?_eq_none]; omega
      rw [h1]
      simp only [Option.bind_none]
      symm
      rw [List.getElem?_eq_none]
      have : bits.length / n * n ≤ p / n * n := Nat.mul_le_mul_right n (by omega)
      omega
  obtain ⟨xs, ls, h1, h2, h3, h4⟩ := stream_words order cplx hS v hv ws hws es (by omega) hes
  rw [hflat] at h4
  have hs : detectSoft3gpp order cplx v (List.zipWith (· + ·) xs es) = .ok ls.flatten := by
    simp [detectSoft3gpp, h3, bind, Except.bind]
  refine ⟨xs, ls.flatten, ?_, by omega, hs, h4, ?_⟩
  · simp only [getSymbols3gpp, ← hndef, hw, bind, Except.bind, h1]
  · simp [detectHard3gpp, hs, bind, Except.bind, hard_of_agrees h4]

/-- Non-vacuity of `C13_stream`: 16-QAM, two symbols, noise of `1/4` in both components. -/
example : Supported 16 true ∧ [true, false, false, true, true, true, false, false].length
      % Nat.log2 16 = 0 ∧
    SmallNoise 16 true ⟨1 / 4, -(1 / 4)⟩ := by
  have h : (1 / 4 : ℝ) < 1 / Real.sqrt 10 := by
    have h4 : Real.sqrt 10 < 4 := by
      rw [Real.sqrt_lt' (by norm_num)]; norm_num
    exact one_div_lt_one_div_of_lt (Real.sqrt_pos.mpr (by norm_num)) h4
  refine ⟨Or.inl ⟨rfl, by decide⟩, by decide, ?_, ?_⟩
  · simp only [normOf]
    rwa [abs_of_pos (by norm_num)]
  · intro _ _
    simp only [normOf]
    rwa [abs_neg, abs_of_pos (by norm_num)]

end Verif.Mapping
