import Verif.Channel.FadingChannel
import Mathlib.Analysis.SpecificLimits.Normed
import Mathlib.Analysis.SpecialFunctions.Log.Basic
import Mathlib.Tactic.FieldSimp

/-!
# Profiles of multipath fading channels

The profiles of `hermespy/channel/fading/`: the 5G tapped delay lines (tdl.py), the COST 259 models (cost259.py), the
exponential profile (exponential.py), and the antenna correlation models (correlation.py, fading.py) (C76).

Simplifications: exact arithmetic; a table holds delays in ten thousandths of the delay spread (tdl.py) or in
nanoseconds (cost259.py) and losses in hundredths of a decibel, all of which the source gives exactly.
-/

namespace Verif.Fading

open Finset Verif.Channel.State Verif.Consistent

/-! ## Tapped delay lines -/

/-- `TDLType`, tdl.py 22-29. -/
inductive Tdl
  | A | B | C | D | E
  deriving DecidableEq

/-- The tables of delays and losses, tdl.py 103-156, 161-216, 221-276, 286-319 and 331-366. -/
def Tdl.table : Tdl → List (Nat × Nat)
  | .A =>
    [(0, 1340), (3819, 0), (4025, 220), (5868, 400), (4610, 600), (5375, 820), (6708, 990), (5750, 1050),
     (7618, 750), (15375, 1590), (18978, 660), (22242, 1670), (21717, 1240), (24942, 1520), (25119, 1080),
     (30582, 1130), (40810, 1270), (44579, 1620), (45695, 1830), (47966, 1890), (50066, 1660), (53043, 1990),
     (96586, 2970)]
  | .B =>
    [(0, 0), (1072, 220), (2155, 400), (2095, 320), (2870, 980), (2986, 320), (3752, 340), (5055, 520),
     (3681, 760), (3697, 300), (5700, 890), (5283, 900), (11021, 480), (12756, 570), (15474, 750),
     (17842, 190), (20169, 760), (28294, 1220), (30219, 980), (36187, 1140), (41067, 1490), (42790, 920),
     (47834, 1130)]
  | .C =>
    [(0, 440), (2099, 120), (2219, 350), (2329, 520), (2176, 250), (6366, 0), (6448, 220), (6560, 390),
     (6584, 740), (7935, 710), (8213, 1070), (9336, 1110), (12285, 510), (13083, 680), (21704, 870),
     (27105, 1320), (42589, 1390), (46003, 1390), (54902, 1580), (56077, 1710), (63065, 1600), (66374, 1570),
     (70427, 2160), (86523, 2280)]
  | .D =>
    [(0, 1350), (350, 1880), (6120, 2100), (13630, 2280), (14050, 1790), (18040, 2010), (25960, 2190),
     (17750, 2290), (40420, 2780), (79370, 2360), (94240, 2480), (97080, 3000), (125250, 2770)]
  | .E =>
    [(0, 2203), (5133, 1580), (5440, 1810), (5630, 1980), (5440, 2290), (7112, 2240), (19092, 1860),
     (19293, 2080), (19589, 2260), (26426, 2230), (37136, 2560), (54524, 2020), (120034, 2980), (206519, 2920)]

/-- `10 ** (power_db / 10)`, tdl.py 377 and cost259.py 210, for a loss in hundredths of a decibel. -/
noncomputable def rawPower (a : Nat) : ℝ := (10 : ℝ) ^ (-(a : ℝ) / 1000)

/-- `power_profile /= sum(power_profile)`, tdl.py 378 and cost259.py 211. -/
noncomputable def normalise (l : List ℝ) : List ℝ := l.map (· / l.sum)

/-- The parameters all profiles have in common, tdl.py 44-50, without the correlation model. -/
structure Common where
  distance : Option ℝ
  sinus : Nat
  losAngle : Option ℝ
  doppler : ℝ
  losDoppler : Option Flt
  gain : ℝ

/-- `rice_factors`, tdl.py 157, 217, 277, 320-321 and 367-368. -/
noncomputable def Tdl.rice (t : Tdl) : List (Option ℝ) :=
  let zeros := t.table.map fun _ => some 0
  match t with
  | .D => zeros.set 0 (some 13.3)
  | .E => zeros.set 0 (some 22)
  | _ => zeros

/-- `TDL.__init__`, tdl.py 96-397. -/
noncomputable def Tdl.init (t : Tdl) (rms : ℚ) (c : Common) (draw : ℝ) (sorting : List Nat) : Except PyErr Channel :=
  if rms < 0 then .error .value
  else if (t = .D ∨ t = .E) ∧ c.losDoppler.isSome then .error .value
  else construct
    { delays := t.table.map fun x => rms * (x.1 / 10000)
      power := normalise (t.table.map fun x => rawPower x.2)
      rice := t.rice
      distance := c.distance
      sinus := c.sinus
      losAngle := c.losAngle
      doppler := c.doppler
      losDoppler := if t = .D ∨ t = .E then some (.num 0.7) else c.losDoppler
      gain := c.gain } draw sorting

/-- Parameters every channel accepts. -/
def Common.Valid (c : Common) : Prop := 0 ≤ c.gain ∧ ∀ r, c.distance = some r → 0 ≤ r

theorem rawPower_pos (a : Nat) : 0 < rawPower a := Real.rpow_pos_of_pos (by norm_num) _

theorem sum_pos_of (l : List ℝ) (h : ∀ x ∈ l, 0 < x) (h0 : l ≠ []) : 0 < l.sum := by
  induction l with
  | nil => exact absurd rfl h0
  | cons x l ih =>
    rw [List.sum_cons]
    by_cases hl : l = []
    · simp [hl, h x List.mem_cons_self]
    · exact add_pos (h x List.mem_cons_self) (ih (fun y hy => h y (List.mem_cons_of_mem _ hy)) hl)

theorem sum_map_div (l : List ℝ) (s : ℝ) : (l.map (· / s)).sum = l.sum / s := by
  induction l with
  | nil => simp
  | cons x l ih => rw [List.map_cons, List.sum_cons, ih, List.sum_cons, add_div]

theorem normalise_sum (l : List ℝ) (h : ∀ x ∈ l, 0 < x) (h0 : l ≠ []) :
    (normalise l).sum = 1 ∧ ∀ x ∈ normalise l, 0 < x := by
  have hs := sum_pos_of l h h0
  refine ⟨by rw [normalise, sum_map_div, div_self hs.ne'], fun x hx => ?_⟩
  obtain ⟨y, hy, rfl⟩ := List.mem_map.mp hx
  exact div_pos (h y hy) hs

theorem Tdl.rice_facts (t : Tdl) : t.rice.length = t.table.length ∧ ∀ v, some v ∈ t.rice → 0 ≤ v := by
  have hz : ∀ v : ℝ, ∀ l : List (Nat × Nat), some v ∈ (l.map fun _ => some (0 : ℝ)) → 0 ≤ v := by
    intro v l hv
    obtain ⟨_, _, e⟩ := List.mem_map.mp hv
    rw [← Option.some.inj e]
  have hset : ∀ (w v : ℝ) (l : List (Nat × Nat)), 0 ≤ w → some v ∈ (l.map fun _ => some (0 : ℝ)).set 0 (some w) → 0 ≤ v := by
    intro w v l hw hv
    rcases List.mem_or_eq_of_mem_set hv with h | h
    · exact hz v l h
    · rw [Option.some.inj h]; exact hw
  cases t
  · exact ⟨by simp [Tdl.rice], fun v => hz v _⟩
  · exact ⟨by simp [Tdl.rice], fun v => hz v _⟩
  · exact ⟨by simp [Tdl.rice], fun v => hz v _⟩
  · exact ⟨by simp [Tdl.rice], fun v => hset 13.3 v _ (by norm_num)⟩
  · exact ⟨by simp [Tdl.rice], fun v => hset 22 v _ (by norm_num)⟩

theorem Tdl.table_ne (t : Tdl) : t.table ≠ [] := by cases t <;> exact List.cons_ne_nil _ _

/-- C76: every tapped delay line can be constructed for every delay spread that is not negative, and its powers sum to
one, so that the gain of the channel is its mean energy scale; all other configurations raise a `ValueError`. -/
theorem C76_tdl (t : Tdl) (rms : ℚ) (c : Common) (draw : ℝ) (sorting : List Nat) :
    (c.Valid → 0 ≤ rms → (c.losDoppler = none ∨ t ≠ .D ∧ t ≠ .E) → ∃ ch, t.init rms c draw sorting = .ok ch) ∧
    (¬ c.Valid ∨ rms < 0 ∨ c.losDoppler ≠ none ∧ (t = .D ∨ t = .E) → t.init rms c draw sorting = .error .value) ∧
    ∀ ch, t.init rms c draw sorting = .ok ch →
      (sorting.Perm (List.range t.table.length) → ch.power.sum = 1 ∧ ∀ g ∈ ch.power, 0 < g) ∧ ch.gain = c.gain := by
  have hn := normalise_sum (t.table.map fun x => rawPower x.2)
    (by intro x hx; obtain ⟨y, _, rfl⟩ := List.mem_map.mp hx; exact rawPower_pos _) (by simp [t.table_ne])
  have hlen : 1 ≤ t.table.length := List.length_pos_iff.mpr t.table_ne
  refine ⟨fun hc h0 hd => ?_, fun hx => ?_, fun ch h => ?_⟩
  · unfold Tdl.init
    rw [if_neg (not_lt.mpr h0), if_neg (by rcases hd with h | h <;> simp [h])]
    refine (C76_construct _ draw sorting).1 ⟨by simpa using hlen, by simp [normalise], by simp [t.rice_facts.1], ?_, ?_, ?_,
      hc.1, hc.2⟩
    · intro d hd
      obtain ⟨x, _, rfl⟩ := List.mem_map.mp hd
      positivity
    · exact fun g hg => (hn.2 g hg).le
    · rintro k v rfl hk
      exact t.rice_facts.2 v hk
  · unfold Tdl.init
    by_cases h0 : rms < 0
    · rw [if_pos h0]
    rw [if_neg h0]
    by_cases hd : (t = .D ∨ t = .E) ∧ c.losDoppler.isSome
    · rw [if_pos hd]
    rw [if_neg hd]
    refine (C76_construct _ draw sorting).2 fun hv => ?_
    rcases hx with hx | hx | hx
    · exact hx ⟨hv.2.2.2.2.2.2.1, hv.2.2.2.2.2.2.2⟩
    · exact h0 hx
    · exact hd ⟨hx.2, Option.isSome_iff_ne_none.mpr hx.1⟩
  · unfold Tdl.init at h
    split_ifs at h
    all_goals
      rw [(construct_ok h).2]
      refine ⟨fun hs => ?_, rfl⟩
      dsimp only
      have hp := gather_perm (0 : ℝ) (sorting := sorting) (l := normalise (t.table.map fun x => rawPower x.2))
        (by simpa [normalise] using hs)
      exact ⟨by rw [hp.sum_eq]; exact hn.1, fun g hg => hn.2 g (hp.mem_iff.mp hg)⟩

/-- C76: restoring stored tapped delay lines of types A, B and C. `serialize`, tdl.py 412-422, writes what the
properties report; `Deserialize`, 426-443, constructs the channel from it. The samples are the same. Missing: types D
and E, `C76_tdl_restore_fails`. -/
theorem C76_tdl_restore_partial (t : Tdl) (rms : ℚ) (c : Common) (draw draw' : ℝ) (sorting : List Nat) (ch : Channel)
    (ht : t ≠ .D ∧ t ≠ .E) (h : t.init rms c draw sorting = .ok ch) :
    ∃ ch', t.init rms ⟨ch.distance, ch.sinus, ch.losAngle, ch.doppler, some ch.sightDoppler, ch.gain⟩ draw' sorting =
        .ok ch' ∧ ch'.losAngle = ch.losAngle ∧ ch'.sightDoppler = ch.sightDoppler ∧ ch'.maxDelay = ch.maxDelay ∧
      ∀ scalars k, ch'.sample scalars k = ch.sample scalars k := by
  have hD : ¬ (t = .D ∨ t = .E) := not_or.mpr ht
  have hv : c.Valid := by
    by_contra hv
    rw [(C76_tdl t rms c draw sorting).2.1 (Or.inl hv)] at h
    cases h
  have h0 : 0 ≤ rms := by
    by_contra h0
    rw [(C76_tdl t rms c draw sorting).2.1 (Or.inr (Or.inl (not_le.mp h0)))] at h
    cases h
  have h1 := h
  unfold Tdl.init at h1
  rw [if_neg (not_lt.mpr h0), if_neg (fun h => hD h.1), if_neg hD] at h1
  have e := (construct_ok h1).2
  obtain ⟨ch', h'⟩ := (C76_tdl t rms ⟨ch.distance, ch.sinus, ch.losAngle, ch.doppler, some ch.sightDoppler, ch.gain⟩ draw'
    sorting).1 (by rw [e]; exact hv) h0 (Or.inr ht)
  have h2 := h'
  unfold Tdl.init at h2
  rw [if_neg (not_lt.mpr h0), if_neg (fun h => hD h.1), if_neg hD] at h2
  have e' := (construct_ok h2).2
  have hsd : ch'.sightDoppler = ch.sightDoppler := by rw [e']; rfl
  refine ⟨ch', h', by rw [e', e]; rfl, hsd, by rw [e', e], fun scalars k => ?_⟩
  unfold Channel.sample
  rw [hsd]
  rw [e', e]

/-- C76, false of the code: types D and E set a line of sight Doppler frequency, write it, and refuse it when they read
it back: no such channel can be restored. -/
theorem C76_tdl_restore_fails (t : Tdl) (ht : t = .D ∨ t = .E) (rms : ℚ) (c : Common) (draw draw' : ℝ)
    (sorting sorting' : List Nat) (ch : Channel) (_h : t.init rms c draw sorting = .ok ch) :
    t.init rms ⟨ch.distance, ch.sinus, ch.losAngle, ch.doppler, some ch.sightDoppler, ch.gain⟩ draw' sorting' =
      .error .value :=
  (C76_tdl _ _ _ _ _).2.1 (Or.inr (Or.inr ⟨by simp, ht⟩))

/-- C76, false of the code: rice factors. The standard gives the rice factors of the first paths of types D and E in
decibels, 13.3 and 22; the numbers are used as linear factors, the line of sight is weaker than it should be. -/
theorem C76_rice_fails (t : Tdl) (K : ℝ) (hK : t = .D ∧ K = 13.3 ∨ t = .E ∧ K = 22) (rms : ℚ) (hr : 0 < rms) (c : Common)
    (draw : ℝ) (sorting : List Nat) (ch : Channel)
    (hs : Argsort sorting (t.table.map fun x => rms * (x.1 / 10000))) (h : t.init rms c draw sorting = .ok ch) :
    ∃ k : ℝ, ch.rice[0]? = some (some k) ∧ k < 10 ^ (K / 10) ∧ k = K := by
  have hlen : 0 < t.table.length := List.length_pos_iff.mpr t.table_ne
  -- the first path of the table has the smallest delay, and no other has it
  have hfirst : ∀ i, i < t.table.length → i ≠ 0 → 0 < (t.table.getD i (0, 0)).1 := by
    rcases hK with ⟨rfl, _⟩ | ⟨rfl, _⟩ <;> decide +kernel
  have hzero : (t.table.getD 0 (0, 0)).1 = 0 := by
    rcases hK with ⟨rfl, _⟩ | ⟨rfl, _⟩ <;> rfl
  have hsl : sorting.length = t.table.length := by simpa using hs.1.length_eq
  have hs0 : sorting[0]'(by omega) = 0 := by
    by_contra hne
    obtain ⟨m, hm, e⟩ := List.getElem_of_mem ((hs.1.mem_iff (a := 0)).mpr (by simpa using hlen))
    have hm0 : 0 < m := by
      rcases Nat.eq_zero_or_pos m with rfl | h
      · exact absurd e hne
      · exact h
    have hg : ∀ i (hi : i < sorting.length), sorting[i] < t.table.length := fun i hi => by
      have := (hs.1.mem_iff).mp (List.getElem_mem hi)
      simpa using this
    have hle := List.pairwise_iff_getElem.mp hs.2 0 m (by simp [gather]; omega) (by simp [gather]; omega) hm0
    have hx := hg 0 (by omega)
    simp only [gather, List.getElem_map, e] at hle
    rw [getD_lt _ _ (by simpa using hx), getD_lt _ _ (by simpa using hlen), List.getElem_map, List.getElem_map] at hle
    have h1 := hfirst _ hx hne
    rw [getD_lt _ _ hx] at h1
    rw [getD_lt _ _ hlen] at hzero
    rw [hzero] at hle
    have h2 : (0 : ℚ) < ((t.table[sorting[0]'(by omega)]).1 : ℚ) := by exact_mod_cast h1
    have h3 : 0 < rms * (((t.table[sorting[0]'(by omega)]).1 : ℚ) / 10000) := by positivity
    simp only [Nat.cast_zero, zero_div, mul_zero] at hle
    linarith
  have hrice : t.rice[0]? = some (some K) := by
    rcases hK with ⟨rfl, rfl⟩ | ⟨rfl, rfl⟩ <;> rfl
  have hch : ch.rice = gather none sorting t.rice := by
    unfold Tdl.init at h
    split_ifs at h
    all_goals rw [(construct_ok h).2]
  refine ⟨K, ?_, ?_, rfl⟩
  · rw [hch, gather, List.getElem?_map, List.getElem?_eq_getElem (by omega), hs0, Option.map_some,
      List.getD_eq_getElem?_getD, hrice]
    rfl
  · have h1 : (10 : ℝ) ^ (1 : ℝ) < 10 ^ ((13.3 : ℝ) / 10) ∧ (13.3 : ℝ) < 10 ^ ((13.3 : ℝ) / 10) := by
      have h2 : (13.3 : ℝ) < 10 ^ ((13 : ℝ) / 10) := by
        rw [← Real.rpow_lt_rpow_iff (z := 10) (by norm_num) (by positivity) (by norm_num), ← Real.rpow_mul (by norm_num)]
        norm_num
      exact ⟨Real.rpow_lt_rpow_of_exponent_lt (by norm_num) (by norm_num),
        h2.trans (Real.rpow_lt_rpow_of_exponent_lt (by norm_num) (by norm_num))⟩
    rcases hK with ⟨_, rfl⟩ | ⟨_, rfl⟩
    · exact h1.2
    · have h2 : (22 : ℝ) < 10 ^ (2 : ℝ) := by norm_num
      exact h2.trans (Real.rpow_lt_rpow_of_exponent_lt (by norm_num) (by norm_num))

/-- Lower bounds of decibels. -/
theorem decibel_lower : (1 / 4 : ℝ) ≤ 10 ^ (-(600 / 1000) : ℝ) ∧ (3 / 20 : ℝ) ≤ 10 ^ (-(800 / 1000) : ℝ) ∧
    (1 / 10 : ℝ) ≤ 10 ^ (-(1000 / 1000) : ℝ) := by
  refine ⟨?_, ?_, ?_⟩
  · rw [show (1 / 4 : ℝ) = ((1 / 4 : ℝ) ^ (5 : ℝ)) ^ (1 / 5 : ℝ) by rw [← Real.rpow_mul (by norm_num)]; norm_num,
      show (10 : ℝ) ^ (-(600 / 1000) : ℝ) = ((10 : ℝ) ^ (-3 : ℝ)) ^ (1 / 5 : ℝ) by
        rw [← Real.rpow_mul (by norm_num)]; norm_num]
    refine Real.rpow_le_rpow (by positivity) ?_ (by norm_num)
    rw [Real.rpow_neg (by norm_num)]
    norm_num
  · rw [show (3 / 20 : ℝ) = ((3 / 20 : ℝ) ^ (5 : ℝ)) ^ (1 / 5 : ℝ) by rw [← Real.rpow_mul (by norm_num)]; norm_num,
      show (10 : ℝ) ^ (-(800 / 1000) : ℝ) = ((10 : ℝ) ^ (-4 : ℝ)) ^ (1 / 5 : ℝ) by
        rw [← Real.rpow_mul (by norm_num)]; norm_num]
    refine Real.rpow_le_rpow (by positivity) ?_ (by norm_num)
    rw [Real.rpow_neg (by norm_num)]
    norm_num
  · rw [show (-(1000 / 1000) : ℝ) = -1 by norm_num, Real.rpow_neg (by norm_num)]
    norm_num

theorem rawPower_step {a b d : Nat} {c : ℝ} (hc : c ≤ 10 ^ (-((d : ℝ) / 1000))) (h : b ≤ a + d) :
    c * rawPower a ≤ rawPower b := by
  have hx := rawPower_pos a
  calc c * rawPower a ≤ 10 ^ (-((d : ℝ) / 1000)) * rawPower a := mul_le_mul_of_nonneg_right hc hx.le
    _ = 10 ^ (-((d : ℝ) / 1000) + -(a : ℝ) / 1000) := by rw [rawPower, Real.rpow_add (by norm_num)]
    _ ≤ rawPower b := by
      refine Real.rpow_le_rpow_of_exponent_le (by norm_num) ?_
      have : (b : ℝ) ≤ a + d := by exact_mod_cast h
      linarith

theorem sighted_share (t : Tdl) (ht : t = .D ∨ t = .E) :
    ∃ p, (normalise (t.table.map fun x => rawPower x.2))[0]? = some p ∧ p < 1 / 2 := by
  have key : ∀ (x : Nat × Nat) (l : List (Nat × Nat)), rawPower x.2 < (l.map fun x => rawPower x.2).sum →
      ∃ p, (normalise ((x :: l).map fun x => rawPower x.2))[0]? = some p ∧ p < 1 / 2 := by
    intro x l h
    have hx := rawPower_pos x.2
    refine ⟨rawPower x.2 / (rawPower x.2 + (l.map fun x => rawPower x.2).sum), by simp [normalise], ?_⟩
    rw [div_lt_iff₀ (by linarith)]
    linarith
  obtain ⟨b1, b2, b3⟩ := decibel_lower
  rcases ht with rfl | rfl
  · refine key _ _ ?_
    simp only [List.map_cons, List.map_nil, List.sum_cons, List.sum_nil]
    have e1 := rawPower_step (a := 1350) (b := 1880) (d := 600) (by exact_mod_cast b1) (by norm_num)
    have e2 := rawPower_step (a := 1350) (b := 2100) (d := 800) (by exact_mod_cast b2) (by norm_num)
    have e3 := rawPower_step (a := 1350) (b := 2280) (d := 1000) (by exact_mod_cast b3) (by norm_num)
    have e4 := rawPower_step (a := 1350) (b := 1790) (d := 600) (by exact_mod_cast b1) (by norm_num)
    have e5 := rawPower_step (a := 1350) (b := 2010) (d := 800) (by exact_mod_cast b2) (by norm_num)
    have e6 := rawPower_step (a := 1350) (b := 2190) (d := 1000) (by exact_mod_cast b3) (by norm_num)
    have e7 := rawPower_step (a := 1350) (b := 2290) (d := 1000) (by exact_mod_cast b3) (by norm_num)
    linarith [rawPower_pos 1350, rawPower_pos 2780, rawPower_pos 2360, rawPower_pos 2480, rawPower_pos 3000,
      rawPower_pos 2770]
  · refine key _ _ ?_
    rw [List.map_cons, List.sum_cons]
    have e1 : rawPower 2203 < rawPower 1580 := Real.rpow_lt_rpow_of_exponent_lt (by norm_num) (by norm_num)
    refine lt_of_lt_of_le e1 (le_add_of_nonneg_right (List.sum_nonneg ?_))
    intro z hz
    obtain ⟨y, _, rfl⟩ := List.mem_map.mp hz
    exact (rawPower_pos _).le

/-- C76, false of the code: the power of the line of sight. In the standard (TR 38.900, tables 7.7.2-4 and 7.7.2-5, named
in tdl.py 279 and 324) the first path of types D and E has by far the most power, 0 decibel with its line of sight. The
code takes the power of the scattered part of this path for that of the path, so that less than half of the power of the
channel arrives on the path with a line of sight. -/
theorem C76_sight_fails (t : Tdl) (ht : t = .D ∨ t = .E) (rms : ℚ) (c : Common) (draw : ℝ) (sorting : List Nat)
    (ch : Channel) (hs : Argsort sorting (t.table.map fun x => rms * (x.1 / 10000)))
    (h : t.init rms c draw sorting = .ok ch) : ∃ (i : Nat) (p k : ℝ), ch.delays[i]? = some 0 ∧ ch.power[i]? = some p ∧
      ch.rice[i]? = some (some k) ∧ 0 < k ∧
      p < ch.power.sum / 2 := by
  obtain ⟨p, hp, hlt⟩ := sighted_share t ht
  obtain ⟨k, hk, hk0⟩ : ∃ k : ℝ, t.rice[0]? = some (some k) ∧ 0 < k := by
    rcases ht with rfl | rfl
    · exact ⟨13.3, rfl, by norm_num⟩
    · exact ⟨22, rfl, by norm_num⟩
  have h0 : t.table[0]?.map (·.1) = some 0 := by rcases ht with rfl | rfl <;> rfl
  have hsum := (((C76_tdl t rms c draw sorting).2.2 ch h).1 (by simpa using hs.1)).1
  have hperm : (triples ch.delays ch.power ch.rice).Perm (triples (t.table.map fun x => rms * (x.1 / 10000))
      (normalise (t.table.map fun x => rawPower x.2)) t.rice) := by
    unfold Tdl.init at h
    split_ifs at h
    all_goals exact (C76_profile _ draw sorting ch hs h).1
  have hmem : ((0 : ℚ), p, some k) ∈ triples (t.table.map fun x => rms * (x.1 / 10000))
      (normalise (t.table.map fun x => rawPower x.2)) t.rice := by
    refine List.mem_of_getElem? (i := 0) ?_
    obtain ⟨x, hx, hx0⟩ := Option.map_eq_some_iff.mp h0
    simp only [triples, List.getElem?_zip_eq_some]
    refine ⟨?_, hp, hk⟩
    simp [hx, hx0]
  obtain ⟨i, hi⟩ := List.mem_iff_getElem?.mp (hperm.mem_iff.mpr hmem)
  simp only [triples, List.getElem?_zip_eq_some] at hi
  exact ⟨i, p, k, hi.1, hi.2.1, hi.2.2, hk0, by rw [hsum]; exact hlt⟩

/-- Parameters by default. -/
def someCommon : Common := ⟨none, 20, none, 0, none, 1⟩

theorem someCommon_valid : someCommon.Valid := ⟨by norm_num [someCommon], fun r hr => by cases hr⟩

example : ∃ ch, Tdl.D.init 1 someCommon 0 (List.range 13) = .ok ch :=
  (C76_tdl .D 1 someCommon 0 (List.range 13)).1 someCommon_valid (by norm_num) (Or.inl rfl)

/-- With the order of its delays, `C76_sight_fails` applies. -/
example : Argsort [0, 1, 2, 3, 4, 7, 5, 6, 8, 9, 10, 11, 12] (Tdl.D.table.map fun x => (1 : ℚ) * (x.1 / 10000)) :=
  ⟨by decide +kernel, by decide +kernel⟩

/-! ### Delay spread -/

/-- Root mean square delay spread of a profile of delays and powers that sum to one. -/
noncomputable def spread (l : List (ℚ × ℝ)) : ℝ :=
  Real.sqrt ((l.map fun x => x.2 * (x.1 : ℝ) ^ 2).sum - (l.map fun x => x.2 * (x.1 : ℝ)).sum ^ 2)

/-- Twice the product of the moments as a sum over pairs, which grows with every power. -/
theorem pair_sum (p d : Nat → ℝ) (n : Nat) :
    ∑ i ∈ range n, ∑ j ∈ range n, p i * p j * (d i - d j) ^ 2 =
      2 * ((∑ i ∈ range n, p i) * ∑ i ∈ range n, p i * d i ^ 2) - 2 * (∑ i ∈ range n, p i * d i) ^ 2 := by
  have h1 : ∀ i j, p i * p j * (d i - d j) ^ 2 =
      p i * d i ^ 2 * p j + p i * (p j * d j ^ 2) - 2 * (p i * d i) * (p j * d j) := fun i j => by ring
  simp only [h1, Finset.sum_sub_distrib, Finset.sum_add_distrib, ← Finset.mul_sum, ← Finset.sum_mul]
  ring

theorem sum_map_range_getD {α : Type} (l : List α) (dflt : α) (f : α → ℝ) :
    (l.map f).sum = ∑ i ∈ range l.length, f (l.getD i dflt) := by
  induction l with
  | nil => simp
  | cons x l ih =>
    rw [List.map_cons, List.sum_cons, ih, List.length_cons, Finset.sum_range_succ', add_comm]
    simp

/-- The variance of a table's delays, in squared ten thousandths. -/
theorem spread_pairs (l : List (Nat × Nat)) (rms : ℚ) (S : ℝ) (hS : S = (l.map fun x => rawPower x.2).sum) (h0 : 0 < S) :
    2 * S ^ 2 * (((l.map fun x => rawPower x.2 / S * ((rms * (x.1 / 10000) : ℚ) : ℝ) ^ 2).sum -
      (l.map fun x => rawPower x.2 / S * ((rms * (x.1 / 10000) : ℚ) : ℝ)).sum ^ 2)) =
    (rms : ℝ) ^ 2 / 10 ^ 8 * ∑ i ∈ range l.length, ∑ j ∈ range l.length,
      rawPower (l.getD i (0, 0)).2 * rawPower (l.getD j (0, 0)).2 *
        (((l.getD i (0, 0)).1 : ℝ) - (l.getD j (0, 0)).1) ^ 2 := by
  rw [pair_sum (fun i => rawPower (l.getD i (0, 0)).2) (fun i => ((l.getD i (0, 0)).1 : ℝ)), ← sum_map_range_getD l (0, 0)
      fun x => rawPower x.2, ← sum_map_range_getD l (0, 0) fun x => rawPower x.2 * (x.1 : ℝ) ^ 2,
    ← sum_map_range_getD l (0, 0) fun x => rawPower x.2 * (x.1 : ℝ), ← hS]
  have e1 : (l.map fun x => rawPower x.2 / S * ((rms * (x.1 / 10000) : ℚ) : ℝ) ^ 2) =
      l.map fun x => (rms : ℝ) ^ 2 / 10 ^ 8 / S * (rawPower x.2 * (x.1 : ℝ) ^ 2) :=
    List.map_congr_left fun x _ => by push_cast; ring
  have e2 : (l.map fun x => rawPower x.2 / S * ((rms * (x.1 / 10000) : ℚ) : ℝ)) =
      l.map fun x => (rms : ℝ) / 10 ^ 4 / S * (rawPower x.2 * (x.1 : ℝ)) :=
    List.map_congr_left fun x _ => by push_cast; ring
  rw [e1, e2, List.sum_map_mul_left, List.sum_map_mul_left]
  field_simp

/-- A lower bound of the powers, in hundred millionths. -/
def Tdl.lows : Tdl → List Nat
  | .A =>
    [4570881, 100000000, 60255958, 39810717, 25118864, 15135612, 10232929, 8912509, 17782794, 2570395,
     21877616, 2137962, 5754399, 3019951, 8317637, 7413102, 5370317, 2398832, 1479108, 1288249, 2187761,
     1023292, 107151]
  | .B =>
    [100000000, 60255958, 39810717, 47863009, 10471285, 47863009, 45708818, 30199517, 17378008, 50118723,
     12882495, 12589254, 33113112, 26915348, 17782794, 64565422, 17378008, 6025595, 10471285, 7244359, 3235936,
     12022644, 7413102]
  | .C =>
    [36307805, 75857757, 44668359, 30199517, 56234132, 100000000, 60255958, 40738027, 18197008, 19498445,
     8511380, 7762471, 30902954, 20892961, 13489628, 4786300, 4073802, 4073802, 2630267, 1949844, 2511886,
     2691534, 691830, 524807]
  | .D =>
    [4466835, 1318256, 794328, 524807, 1621810, 977237, 645654, 512861, 165958, 436515, 331131, 100000, 169824]
  | .E =>
    [626613, 2630267, 1548816, 1047128, 512861, 575439, 1380384, 831763, 549540, 588843, 275422, 954992,
     104712, 120226]

/-- `lo ≤ 10⁸ 10^(-a/K) ≤ lo + 1` for `E = 8 K`, in integers. -/
def within (K E a lo : Nat) : Bool := decide (lo ^ K * 10 ^ a ≤ 10 ^ E ∧ 10 ^ E ≤ (lo + 1) ^ K * 10 ^ a)

/-- The bounds hold. -/
def Tdl.boundsOk (t : Tdl) : Bool :=
  decide (t.lows.length = t.table.length) && (t.table.zip t.lows).all fun x => within 1000 8000 x.1.2 x.2

theorem Tdl.bounds_ok (t : Tdl) : t.boundsOk = true := by
  cases t <;> decide +kernel

theorem rawPower_pow (a : Nat) : (10 ^ 8 * rawPower a) ^ 1000 * (10 : ℝ) ^ a = 10 ^ 8000 := by
  have h1 : rawPower a ^ 1000 * (10 : ℝ) ^ a = 1 := by
    rw [rawPower, ← Real.rpow_natCast, ← Real.rpow_mul (by norm_num), ← Real.rpow_natCast 10 a, ← Real.rpow_add (by norm_num)]
    rw [show -(a : ℝ) / 1000 * (1000 : Nat) + a = 0 by push_cast; ring, Real.rpow_zero]
  rw [mul_pow, mul_assoc, h1, mul_one, ← pow_mul]

theorem pow_bounds (K E a lo : Nat) (hK : K ≠ 0) (x : ℝ) (hx : 0 ≤ x) (h : x ^ K * (10 : ℝ) ^ a = 10 ^ E)
    (hw : within K E a lo = true) : (lo : ℝ) ≤ x ∧ x ≤ lo + 1 := by
  rw [within, decide_eq_true_eq] at hw
  have h3 : (0 : ℝ) < 10 ^ a := by positivity
  have h4 : (lo : ℝ) ^ K * 10 ^ a ≤ 10 ^ E := by exact_mod_cast hw.1
  have h5 : (10 : ℝ) ^ E ≤ ((lo : ℝ) + 1) ^ K * 10 ^ a := by exact_mod_cast hw.2
  rw [← h] at h4 h5
  exact ⟨le_of_pow_le_pow_left₀ hK hx (le_of_mul_le_mul_right h4 h3),
    le_of_pow_le_pow_left₀ hK (by positivity) (le_of_mul_le_mul_right h5 h3)⟩

theorem Tdl.power_bounds (t : Tdl) (i : Nat) (hi : i < t.table.length) :
    (t.lows.getD i 0 : ℝ) ≤ 10 ^ 8 * rawPower (t.table.getD i (0, 0)).2 ∧
    10 ^ 8 * rawPower (t.table.getD i (0, 0)).2 ≤ t.lows.getD i 0 + 1 := by
  have h := t.bounds_ok
  rw [Tdl.boundsOk, Bool.and_eq_true, decide_eq_true_eq, List.all_eq_true] at h
  obtain ⟨hl, h⟩ := h
  have hi' : i < t.lows.length := by omega
  have := h (t.table[i], t.lows[i]) (by
    have h1 : i < (t.table.zip t.lows).length := by simp; omega
    have h2 := List.getElem_mem h1
    rwa [List.getElem_zip] at h2)
  rw [getD_lt _ _ hi, getD_lt _ _ hi']
  exact pow_bounds 1000 8000 _ _ (by norm_num) _ (mul_nonneg (by norm_num) (rawPower_pos _).le) (rawPower_pow _) this

/-- The sum over pairs with bounds of the powers. -/
def Tdl.pairs (t : Tdl) (e : Nat) : ℤ :=
  ∑ i ∈ range t.table.length, ∑ j ∈ range t.table.length, ((t.lows.getD i 0 : ℤ) + e) * ((t.lows.getD j 0 : ℤ) + e) *
    (((t.table.getD i (0, 0)).1 : ℤ) - ((t.table.getD j (0, 0)).1 : ℤ)) ^ 2

/-- The sum of the powers with bounds. -/
def Tdl.total (t : Tdl) (e : Nat) : ℤ := ∑ i ∈ range t.table.length, ((t.lows.getD i 0 : ℤ) + e)

theorem Tdl.check :
    (∀ t : Tdl, t = .A ∨ t = .C → 999 ^ 2 * (2 * 10 ^ 8 * t.total 1 ^ 2) ≤ 1000 ^ 2 * t.pairs 0 ∧
      1000 ^ 2 * t.pairs 1 ≤ 1001 ^ 2 * (2 * 10 ^ 8 * t.total 0 ^ 2)) ∧
    101 ^ 2 * (2 * 10 ^ 8 * Tdl.B.total 1 ^ 2) ≤ 100 ^ 2 * Tdl.B.pairs 0 ∧
    (∀ t : Tdl, t = .D ∨ t = .E → 5 ^ 2 * (2 * 10 ^ 8 * t.total 1 ^ 2) ≤ 2 ^ 2 * t.pairs 0) ∧ ∀ t : Tdl, 0 < t.total 0 := by
  refine ⟨?_, by decide +kernel, ?_, ?_⟩
  · rintro t (rfl | rfl) <;> decide +kernel
  · rintro t (rfl | rfl) <;> decide +kernel
  · intro t
    cases t <;> decide +kernel

/-- The variance of the delays of a channel between bounds that hold in integers. -/
theorem Tdl.spread_bounds (t : Tdl) (rms : ℚ) (c : Common) (draw : ℝ) (sorting : List Nat) (ch : Channel)
    (hs : Argsort sorting (t.table.map fun x => rms * (x.1 / 10000))) (h : t.init rms c draw sorting = .ok ch) :
    ∃ V : ℝ, 0 ≤ rms ∧ 0 ≤ V ∧ spread (ch.delays.zip ch.power) = rms * Real.sqrt V ∧
      (∀ u v : ℤ, 0 < v → u * (2 * 10 ^ 8 * t.total 1 ^ 2) ≤ v * t.pairs 0 → (u : ℝ) / v ≤ V) ∧
      ∀ u v : ℤ, 0 < v → v * t.pairs 1 ≤ u * (2 * 10 ^ 8 * t.total 0 ^ 2) → V ≤ (u : ℝ) / v := by
  have h0 : 0 ≤ rms := by
    by_contra h0
    rw [(C76_tdl t rms c draw sorting).2.1 (Or.inr (Or.inl (not_le.mp h0)))] at h
    cases h
  have hl : sorting.Perm (List.range t.table.length) := by simpa using hs.1
  -- the profile is the table
  have hperm : (ch.delays.zip ch.power).Perm ((t.table.map fun x => rms * (x.1 / 10000)).zip
      (normalise (t.table.map fun x => rawPower x.2))) := by
    have hz : ∀ (d : List ℚ) (g : List ℝ) (k : List (Option ℝ)), g.length = d.length → k.length = d.length →
        (triples d g k).map (fun x : ℚ × ℝ × Option ℝ => (x.1, x.2.1)) = d.zip g := by
      intro d g k h1 h2
      refine List.ext_getElem (by simp [triples, h1, h2]) fun i _ _ => by simp [triples]
    unfold Tdl.init at h
    split_ifs at h
    all_goals
      have hp := C76_profile _ draw sorting ch hs h
      have hpz := hp.1.map fun x : ℚ × ℝ × Option ℝ => (x.1, x.2.1)
      rw [hz _ _ _ (by omega) (by omega), hz _ _ _ (by simp [normalise]) (by simp [t.rice_facts.1])] at hpz
      exact hpz
  set S := (t.table.map fun x => rawPower x.2).sum with hS
  have hS0 : 0 < S := sum_pos_of _ (by
    intro x hx; obtain ⟨y, _, rfl⟩ := List.mem_map.mp hx; exact rawPower_pos _) (by simp [t.table_ne])
  have hzip : (t.table.map fun x => rms * (x.1 / 10000)).zip (normalise (t.table.map fun x => rawPower x.2)) =
      t.table.map fun x => (rms * ((x.1 : ℚ) / 10000), rawPower x.2 / S) := by
    rw [normalise, ← hS, List.map_map]
    exact List.ext_getElem (by simp) fun i _ _ => by simp
  have hsp : spread (ch.delays.zip ch.power) = Real.sqrt
      ((t.table.map fun x => rawPower x.2 / S * ((rms * (x.1 / 10000) : ℚ) : ℝ) ^ 2).sum -
        (t.table.map fun x => rawPower x.2 / S * ((rms * (x.1 / 10000) : ℚ) : ℝ)).sum ^ 2) := by
    unfold spread
    rw [(hperm.map fun x => x.2 * (x.1 : ℝ) ^ 2).sum_eq, (hperm.map fun x => x.2 * (x.1 : ℝ)).sum_eq, hzip, List.map_map,
      List.map_map]
    rfl
  set P := ∑ i ∈ range t.table.length, ∑ j ∈ range t.table.length,
      rawPower (t.table.getD i (0, 0)).2 * rawPower (t.table.getD j (0, 0)).2 *
        (((t.table.getD i (0, 0)).1 : ℝ) - (t.table.getD j (0, 0)).1) ^ 2 with hP
  have hpair := spread_pairs t.table rms S hS hS0
  rw [← hP] at hpair
  have hP0 : 0 ≤ P := Finset.sum_nonneg fun i _ => Finset.sum_nonneg fun j _ =>
    mul_nonneg (mul_nonneg (rawPower_pos _).le (rawPower_pos _).le) (sq_nonneg _)
  -- bounds of the sums
  have hSsum : S = ∑ i ∈ range t.table.length, rawPower (t.table.getD i (0, 0)).2 := by
    rw [hS, sum_map_range_getD t.table (0, 0) fun x => rawPower x.2]
  have hSlo : (t.total 0 : ℝ) ≤ 10 ^ 8 * S := by
    rw [hSsum, Finset.mul_sum, Tdl.total]
    push_cast
    refine Finset.sum_le_sum fun i hi => ?_
    rw [add_zero]
    exact (t.power_bounds i (Finset.mem_range.mp hi)).1
  have hShi : 10 ^ 8 * S ≤ (t.total 1 : ℝ) := by
    rw [hSsum, Finset.mul_sum, Tdl.total]
    push_cast
    exact Finset.sum_le_sum fun i hi => (t.power_bounds i (Finset.mem_range.mp hi)).2
  have hPlo : (t.pairs 0 : ℝ) ≤ 10 ^ 16 * P := by
    rw [hP, Finset.mul_sum, Tdl.pairs]
    push_cast
    refine Finset.sum_le_sum fun i hi => ?_
    rw [Finset.mul_sum]
    refine Finset.sum_le_sum fun j hj => ?_
    have hi' := (t.power_bounds i (Finset.mem_range.mp hi)).1
    have hj' := (t.power_bounds j (Finset.mem_range.mp hj)).1
    rw [add_zero, add_zero, ← mul_assoc]
    refine mul_le_mul_of_nonneg_right ?_ (sq_nonneg _)
    refine (mul_le_mul hi' hj' (Nat.cast_nonneg _) (mul_nonneg (by norm_num) (rawPower_pos _).le)).trans (le_of_eq ?_)
    ring
  have hPhi : 10 ^ 16 * P ≤ (t.pairs 1 : ℝ) := by
    rw [hP, Finset.mul_sum, Tdl.pairs]
    push_cast
    refine Finset.sum_le_sum fun i hi => ?_
    rw [Finset.mul_sum]
    refine Finset.sum_le_sum fun j hj => ?_
    have hi' := (t.power_bounds i (Finset.mem_range.mp hi)).2
    have hj' := (t.power_bounds j (Finset.mem_range.mp hj)).2
    rw [← mul_assoc]
    refine mul_le_mul_of_nonneg_right ?_ (sq_nonneg _)
    refine (le_of_eq ?_).trans (mul_le_mul hi' hj' (mul_nonneg (by norm_num) (rawPower_pos _).le) (by positivity))
    ring
  have htot : (0 : ℝ) < t.total 0 := by exact_mod_cast Tdl.check.2.2.2 t
  have hden : 0 < 2 * 10 ^ 8 * S ^ 2 := by positivity
  refine ⟨P / (2 * 10 ^ 8 * S ^ 2), h0, div_nonneg hP0 hden.le, ?_, ?_, ?_⟩
  · have aux : ∀ W : ℝ, 2 * S ^ 2 * W = (rms : ℝ) ^ 2 / 10 ^ 8 * P → W = (rms : ℝ) ^ 2 * (P / (2 * 10 ^ 8 * S ^ 2)) := by
      intro W hW
      field_simp
      linear_combination 10 ^ 8 * hW
    rw [hsp, aux _ hpair, Real.sqrt_mul (sq_nonneg _), Real.sqrt_sq (by exact_mod_cast h0)]
  · intro u v hv huv
    have hv' : (0 : ℝ) < v := by exact_mod_cast hv
    have h1 : (u : ℝ) * (2 * 10 ^ 8 * t.total 1 ^ 2) ≤ v * t.pairs 0 := by exact_mod_cast huv
    rw [div_le_div_iff₀ hv' hden]
    by_cases hu : 0 ≤ u
    · have hu' : (0 : ℝ) ≤ u := by exact_mod_cast hu
      have h2 : (10 ^ 8 * S) ^ 2 ≤ (t.total 1 : ℝ) ^ 2 := pow_le_pow_left₀ (by positivity) hShi 2
      have h3 : (u : ℝ) * (2 * 10 ^ 8 * (10 ^ 8 * S) ^ 2) ≤ v * (10 ^ 16 * P) :=
        (mul_le_mul_of_nonneg_left (by linarith) hu').trans (h1.trans (mul_le_mul_of_nonneg_left hPlo hv'.le))
      have h4 : (u : ℝ) * (2 * 10 ^ 8 * S ^ 2) * 10 ^ 16 ≤ P * v * 10 ^ 16 := by linarith
      exact le_of_mul_le_mul_right h4 (by norm_num)
    · have hu' : (u : ℝ) < 0 := by exact_mod_cast not_le.mp hu
      nlinarith [mul_nonneg hP0 hv'.le]
  · intro u v hv huv
    have hv' : (0 : ℝ) < v := by exact_mod_cast hv
    have h1 : (v : ℝ) * t.pairs 1 ≤ u * (2 * 10 ^ 8 * t.total 0 ^ 2) := by exact_mod_cast huv
    rw [div_le_div_iff₀ hden hv']
    have h2 : (t.total 0 : ℝ) ^ 2 ≤ (10 ^ 8 * S) ^ 2 := pow_le_pow_left₀ htot.le hSlo 2
    have hu' : (0 : ℝ) ≤ u := by
      have h3 : 0 ≤ (v : ℝ) * t.pairs 1 := mul_nonneg hv'.le ((by positivity : (0 : ℝ) ≤ 10 ^ 16 * P).trans hPhi)
      have h4 := h3.trans h1
      exact nonneg_of_mul_nonneg_left h4 (by positivity)
    have h3 : (v : ℝ) * (10 ^ 16 * P) ≤ u * (2 * 10 ^ 8 * (10 ^ 8 * S) ^ 2) :=
      (mul_le_mul_of_nonneg_left hPhi hv'.le).trans (h1.trans (mul_le_mul_of_nonneg_left (by linarith) hu'))
    have h4 : P * v * 10 ^ 16 ≤ (u : ℝ) * (2 * 10 ^ 8 * S ^ 2) * 10 ^ 16 := by linarith
    exact le_of_mul_le_mul_right h4 (by norm_num)

/-- C76: the delay spread of tapped delay lines of types A and C is the configured one, to one part in a thousand.
Missing: types B, D and E, `C76_rms_fails`. -/
theorem C76_rms_partial (t : Tdl) (ht : t = .A ∨ t = .C) (rms : ℚ) (c : Common) (draw : ℝ) (sorting : List Nat)
    (ch : Channel) (hs : Argsort sorting (t.table.map fun x => rms * (x.1 / 10000)))
    (h : t.init rms c draw sorting = .ok ch) :
    |spread (ch.delays.zip ch.power) - rms| ≤ rms / 1000 := by
  obtain ⟨V, h0, hV0, hsp, hlo, hhi⟩ := t.spread_bounds rms c draw sorting ch hs h
  have h0' : (0 : ℝ) ≤ rms := by exact_mod_cast h0
  have h1 := hlo (999 ^ 2) (1000 ^ 2) (by norm_num) (Tdl.check.1 t ht).1
  have h2 := hhi (1001 ^ 2) (1000 ^ 2) (by norm_num) (Tdl.check.1 t ht).2
  have h3 : (999 / 1000 : ℝ) ≤ Real.sqrt V := Real.le_sqrt_of_sq_le (by push_cast at h1; linarith)
  have h4 : Real.sqrt V ≤ 1001 / 1000 := Real.sqrt_le_iff.mpr ⟨by norm_num, by push_cast at h2; linarith⟩
  rw [hsp, abs_le]
  constructor <;> nlinarith

/-- C76, false of the code: type B is more than one percent off (its sixth loss is not the one of the standard), and
types D and E have more than two and a half times the configured delay spread (the line of sight power is missing from
the first path). -/
theorem C76_rms_fails (t : Tdl) (rms : ℚ) (c : Common) (draw : ℝ) (sorting : List Nat) (ch : Channel)
    (hs : Argsort sorting (t.table.map fun x => rms * (x.1 / 10000))) (h : t.init rms c draw sorting = .ok ch) :
    (t = .B → 1.01 * rms ≤ spread (ch.delays.zip ch.power)) ∧
    (t = .D ∨ t = .E → 2.5 * rms ≤ spread (ch.delays.zip ch.power)) := by
  obtain ⟨V, h0, hV0, hsp, hlo, hhi⟩ := t.spread_bounds rms c draw sorting ch hs h
  have h0' : (0 : ℝ) ≤ rms := by exact_mod_cast h0
  constructor
  · rintro rfl
    have h1 := hlo (101 ^ 2) (100 ^ 2) (by norm_num) Tdl.check.2.1
    have h3 : (1.01 : ℝ) ≤ Real.sqrt V := Real.le_sqrt_of_sq_le (by push_cast at h1; linarith)
    rw [hsp]
    nlinarith
  · intro ht
    have h1 := hlo (5 ^ 2) (2 ^ 2) (by norm_num) (Tdl.check.2.2.1 t ht)
    have h3 : (2.5 : ℝ) ≤ Real.sqrt V := Real.le_sqrt_of_sq_le (by push_cast at h1; linarith)
    rw [hsp]
    nlinarith

/-- A type A line of one second: the hypotheses of the theorems on delay spreads can be met. -/
example : ∃ sorting ch, Argsort sorting (Tdl.A.table.map fun x => (1 : ℚ) * (x.1 / 10000)) ∧
    Tdl.A.init 1 someCommon 0 sorting = .ok ch := by
  obtain ⟨ch, h⟩ := (C76_tdl .A 1 someCommon 0
    [0, 1, 2, 4, 5, 7, 3, 6, 8, 9, 10, 12, 11, 13, 14, 15, 16, 17, 18, 19, 20, 21, 22]).1 someCommon_valid (by norm_num)
    (Or.inl rfl)
  exact ⟨_, ch, ⟨by decide +kernel, by decide +kernel⟩, h⟩

/-! ## COST 259 -/

/-- `Cost259Type`, cost259.py 22-32. -/
inductive Cost
  | urban | rural | hilly
  deriving DecidableEq

/-- The tables of delays and losses, cost259.py 95-142, 146-149 and 153-200. -/
def Cost.table : Cost → List (Nat × Nat)
  | .urban =>
    [(0, 570), (217, 760), (512, 1010), (514, 1020), (517, 1020), (674, 1150), (882, 1340), (1230, 1630),
     (1287, 1690), (1311, 1710), (1349, 1740), (1533, 1900), (1535, 1900), (1622, 1980), (1818, 2150),
     (1836, 2160), (1884, 2210), (1943, 2260), (2048, 2350), (2140, 2430)]
  | .rural =>
    [(0, 520), (42, 640), (101, 840), (129, 930), (149, 1000), (245, 1310), (312, 1530), (410, 1850),
     (469, 2040), (528, 2240)]
  | .hilly =>
    [(0, 360), (356, 890), (441, 1020), (528, 1150), (546, 1180), (609, 1270), (625, 1300), (842, 1620),
     (916, 1730), (941, 1770), (15000, 1760), (16172, 2270), (16492, 2410), (16876, 2580), (16882, 2580),
     (16978, 2620), (17615, 2900), (17827, 2990), (17849, 3000), (18016, 3070)]

/-- The arguments `Cost259.__init__` hands to its base class, cost259.py 94-227. -/
noncomputable def Cost.args (t : Cost) (c : Common) : Args where
  delays := t.table.map fun x => 1 / 10 ^ 6 * (x.1 / 1000)
  power := normalise (t.table.map fun x => rawPower x.2)
  rice := if t = .hilly then none :: (t.table.tail.map fun _ => some 0) else t.table.map fun _ => some 0
  distance := c.distance
  sinus := c.sinus
  losAngle := if t = .hilly then some (Real.arccos 0.7) else c.losAngle
  doppler := c.doppler
  losDoppler := c.losDoppler
  gain := c.gain

theorem Cost.args_valid (t : Cost) (c : Common) : Valid (t.args c) ↔ c.Valid := by
  have hn := normalise_sum (t.table.map fun x => rawPower x.2)
    (by intro x hx; obtain ⟨y, _, rfl⟩ := List.mem_map.mp hx; exact rawPower_pos _)
    (by cases t <;> simp [Cost.table])
  constructor
  · intro h
    exact ⟨h.2.2.2.2.2.2.1, h.2.2.2.2.2.2.2⟩
  · intro h
    refine ⟨?_, by simp [Cost.args, normalise], ?_, ?_, fun g hg => (hn.2 g hg).le, ?_, h.1, h.2⟩
    · cases t <;> simp [Cost.args, Cost.table]
    · cases t <;> simp [Cost.args, Cost.table]
    · intro d hd
      obtain ⟨x, _, rfl⟩ := List.mem_map.mp hd
      positivity
    · rintro k v rfl hk
      unfold Cost.args at hk
      dsimp only at hk
      split at hk
      · rcases List.mem_cons.mp hk with h | h
        · cases h
        · obtain ⟨_, _, e⟩ := List.mem_map.mp h
          rw [← Option.some.inj e]
      · obtain ⟨_, _, e⟩ := List.mem_map.mp hk
        rw [← Option.some.inj e]

/-- C76: COST 259 channels of all types can be constructed, exactly for the parameters every channel accepts; their
powers sum to one, and their delays are already in order. -/
theorem C76_cost (t : Cost) (c : Common) (draw : ℝ) (sorting : List Nat) :
    (c.Valid → ∃ ch, construct (t.args c) draw sorting = .ok ch) ∧
    (¬ c.Valid → construct (t.args c) draw sorting = .error .value) ∧
    (t.args c).power.sum = 1 ∧ (t.args c).delays.Pairwise (· < ·) := by
  have hn := normalise_sum (t.table.map fun x => rawPower x.2)
    (by intro x hx; obtain ⟨y, _, rfl⟩ := List.mem_map.mp hx; exact rawPower_pos _)
    (by cases t <;> simp [Cost.table])
  refine ⟨fun h => (C76_construct _ _ _).1 ((t.args_valid c).mpr h), fun h => (C76_construct _ _ _).2
    fun h' => h ((t.args_valid c).mp h'), hn.1, ?_⟩
  have : t.table.Pairwise fun x y => x.1 < y.1 := by cases t <;> decide +kernel
  refine List.pairwise_map.mpr (this.imp fun {x y} h => ?_)
  have h' : (x.1 : ℚ) < y.1 := by exact_mod_cast h
  linarith

/-- C76, false of the code: hilly terrain. The channel reports the line of sight angle its model prescribes and
draws the angle at random instead. -/
theorem C76_cost_fails (c : Common) (hc : c.Valid) (hN : 0 < c.sinus) (hd : c.losDoppler = none) (draw : ℝ) :
    ∃ ch, construct (Cost.hilly.args c) draw (List.range 20) = .ok ch ∧ ch.losAngle = some (Real.arccos 0.7) ∧
      ∀ k, ∃ scalars s, ch.sample scalars k = .ok (some s) ∧ ∀ p < s.paths, s.losAngle p ≠ Real.arccos 0.7 := by
  have hs : Argsort (List.range 20) (Cost.hilly.args c).delays := by
    refine ⟨List.Perm.refl _, ?_⟩
    have h1 := (C76_cost .hilly c draw []).2.2.2
    have h2 := gather_range (0 : ℚ) (Cost.hilly.args c).delays
    have h3 : (Cost.hilly.args c).delays.length = 20 := rfl
    rw [h3] at h2
    rw [h2]
    exact h1.imp fun h => h.le
  obtain ⟨ch, _, h, _, h2, _, h3⟩ := C76_los_angle_fails (Cost.hilly.args c) draw (List.range 20) hs
    ((Cost.args_valid .hilly c).mpr hc) hN hd (Real.arccos 0.7)
  exact ⟨ch, h, h2, h3⟩

example : someCommon.Valid ∧ 0 < someCommon.sinus ∧ someCommon.losDoppler = none :=
  ⟨someCommon_valid, by norm_num [someCommon], rfl⟩

/-! ## Exponential profiles -/

/-- `alpha`, exponential.py 96, for the normalised delay spread. -/
noncomputable def decay (r : ℝ) : ℝ := -2 * Real.log ((-1 + Real.sqrt (1 + 4 * r ^ 2)) / (2 * r))

/-- `max_delay_in_samples + 1`, exponential.py 97 and 99. -/
noncomputable def numTaps (r : ℝ) : Nat := (-⌈Real.log (1 / 10 ^ 5) / decay r⌉).toNat + 1

/-- `Exponential.__init__`, exponential.py 81-117. -/
noncomputable def exponential (tap rms : ℚ) (c : Common) (draw : ℝ) (sorting : List Nat) : Except PyErr Channel :=
  if tap ≤ 0 then .error .value
  else if rms ≤ 0 then .error .value
  else construct
    { delays := (List.range (numTaps (rms / tap))).map fun k : Nat => (k : ℚ) * tap
      power := (List.range (numTaps (rms / tap))).map fun k : Nat => Real.exp (-decay (rms / tap) * k)
      rice := (List.range (numTaps (rms / tap))).map fun _ => some 0
      distance := c.distance
      sinus := c.sinus
      losAngle := c.losAngle
      doppler := c.doppler
      losDoppler := c.losDoppler
      gain := c.gain } draw sorting

/-- The ratio of successive powers. -/
theorem decay_facts (r : ℝ) (hr : 0 < r) : ∃ q : ℝ, 0 < q ∧ q < 1 ∧ q = r * (1 - q ^ 2) ∧
    Real.exp (-decay r) = q ^ 2 ∧ 0 < decay r := by
  have h0 : (0 : ℝ) ≤ 1 + 4 * r ^ 2 := by positivity
  have hs := Real.sq_sqrt h0
  have hs1 : 1 < Real.sqrt (1 + 4 * r ^ 2) := Real.lt_sqrt_of_sq_lt (by nlinarith [sq_pos_of_pos hr])
  have hs2 : Real.sqrt (1 + 4 * r ^ 2) < 1 + 2 * r := by
    rw [Real.sqrt_lt' (by linarith)]
    nlinarith
  set w := Real.sqrt (1 + 4 * r ^ 2)
  have hq0 : 0 < (-1 + w) / (2 * r) := div_pos (by linarith) (by linarith)
  have hq1 : (-1 + w) / (2 * r) < 1 := by
    rw [div_lt_one (by linarith)]
    linarith
  have hlog : Real.log ((-1 + w) / (2 * r)) < 0 := Real.log_neg hq0 hq1
  refine ⟨(-1 + w) / (2 * r), hq0, hq1, ?_, ?_, ?_⟩
  · field_simp
    nlinarith
  · rw [decay, neg_mul, neg_neg, ← Nat.cast_two, ← Real.log_pow, Real.exp_log (by positivity)]
  · change 0 < -2 * Real.log ((-1 + w) / (2 * r))
    linarith

theorem exp_decay_pow (r : ℝ) (k : Nat) : Real.exp (-decay r * k) = Real.exp (-decay r) ^ k := by
  rw [← Real.exp_nat_mul]
  ring_nf

/-- C76: exponential profiles. They are refused exactly for spacings and delay spreads that are not positive (and
parameters no channel accepts); their paths are spaced by the tap interval, the first one has unit power and every path
the same share of the one before; paths are kept as long as they have a hundred thousandth of the power of the first one;
and the ratio is the one for which the infinite profile has the configured delay spread. -/
theorem C76_exponential (tap rms : ℚ) (c : Common) (draw : ℝ) (sorting : List Nat) :
    (c.Valid → 0 < tap → 0 < rms → ∃ ch, exponential tap rms c draw sorting = .ok ch) ∧
    (¬ c.Valid ∨ tap ≤ 0 ∨ rms ≤ 0 → exponential tap rms c draw sorting = .error .value) ∧
    (0 < tap → 0 < rms → ∃ x : ℝ, 0 < x ∧ x < 1 ∧
      (∀ k : Nat, Real.exp (-decay (rms / tap) * k) = x ^ k) ∧
      (∀ k : Nat, k < numTaps (rms / tap) ↔ 1 / 10 ^ 5 ≤ x ^ k) ∧
      ∃ P M V : ℝ, HasSum (fun k : Nat => x ^ k) P ∧ HasSum (fun k : Nat => x ^ k * (k * tap : ℝ)) M ∧
        HasSum (fun k : Nat => x ^ k * (k * tap : ℝ) ^ 2) V ∧ Real.sqrt (V / P - (M / P) ^ 2) = rms) ∧
    ∀ ch, exponential tap rms c draw sorting = .ok ch →
      Argsort sorting ((List.range (numTaps (rms / tap))).map fun k : Nat => (k : ℚ) * tap) →
      ch.delays.length = numTaps (rms / tap) ∧ ch.power.length = numTaps (rms / tap) ∧
      ∀ k < numTaps (rms / tap), ch.delays[k]? = some (k * tap) ∧
        ch.power[k]? = some (Real.exp (-decay (rms / tap) * k)) := by
  refine ⟨fun hc ht hr => ?_, fun hx => ?_, fun ht hr => ?_, fun ch h hs => ?_⟩
  rotate_left 3
  · unfold exponential at h
    split_ifs at h with h1 h2
    have ht : 0 < tap := not_le.mp h1
    have hsort := argsort_sorted hs (by
      refine List.pairwise_map.mpr (List.pairwise_lt_range.imp fun {i j} hij => ?_)
      have : (i : ℚ) < j := by exact_mod_cast hij
      exact mul_lt_mul_of_pos_right this ht)
    have hlen : ∀ {α : Type} (f : Nat → α), ((List.range (numTaps (rms / tap))).map f).length = numTaps (rms / tap) := by
      intro α f; simp
    rw [hlen] at hsort
    have hg : ∀ {α : Type} (d : α) (f : Nat → α), gather d sorting ((List.range (numTaps (rms / tap))).map f) =
        (List.range (numTaps (rms / tap))).map f := by
      intro α d f
      have := gather_range d ((List.range (numTaps (rms / tap))).map f)
      rw [hlen] at this
      rw [hsort]
      exact this
    rw [(construct_ok h).2]
    dsimp only
    rw [hg, hg]
    refine ⟨by simp, by simp, fun k hk => ?_⟩
    simp [hk]
  · unfold exponential
    rw [if_neg (not_le.mpr ht), if_neg (not_le.mpr hr)]
    refine (C76_construct _ draw sorting).1 ⟨by simp [numTaps], by simp, by simp, ?_, ?_, ?_, hc.1, hc.2⟩
    · intro d hd
      obtain ⟨x, _, rfl⟩ := List.mem_map.mp hd
      positivity
    · intro d hd
      obtain ⟨x, _, rfl⟩ := List.mem_map.mp hd
      positivity
    · rintro k v rfl hk
      obtain ⟨_, _, e⟩ := List.mem_map.mp hk
      rw [← Option.some.inj e]
  · unfold exponential
    split_ifs with h1 h2
    · rfl
    · rfl
    · refine (C76_construct _ draw sorting).2 fun hv => ?_
      rcases hx with hx | hx | hx
      · exact hx ⟨hv.2.2.2.2.2.2.1, hv.2.2.2.2.2.2.2⟩
      · exact h1 hx
      · exact h2 hx
  · have ht' : (0 : ℝ) < tap := by exact_mod_cast ht
    have hr' : (0 : ℝ) < rms := by exact_mod_cast hr
    obtain ⟨q, hq0, hq1, hq, he, hd⟩ := decay_facts ((rms : ℝ) / tap) (div_pos hr' ht')
    set r := (rms : ℝ) / tap with hrdef
    have hx0 : 0 < q ^ 2 := by positivity
    have hx1 : q ^ 2 < 1 := by nlinarith
    refine ⟨q ^ 2, hx0, hx1, fun k => by rw [exp_decay_pow, he], fun k => ?_, ?_⟩
    · rw [← he, ← exp_decay_pow, numTaps]
      have hlog : Real.log (1 / 10 ^ 5) < 0 := Real.log_neg (by norm_num) (by norm_num)
      have hneg : ⌈Real.log (1 / 10 ^ 5) / decay r⌉ ≤ 0 := by
        rw [Int.ceil_le]
        push_cast
        exact (div_neg_of_neg_of_pos hlog hd).le
      have h1 : k < (-⌈Real.log (1 / 10 ^ 5) / decay r⌉).toNat + 1 ↔ ⌈Real.log (1 / 10 ^ 5) / decay r⌉ ≤ -(k : ℤ) := by
        omega
      rw [h1, Int.ceil_le, ← Real.log_le_iff_le_exp (by norm_num), div_le_iff₀ hd]
      push_cast
      rw [neg_mul, neg_mul, mul_comm]
    · have hn : ‖q ^ 2‖ < 1 := by rw [Real.norm_of_nonneg hx0.le]; exact hx1
      have c0 := hasSum_choose_mul_geometric_of_norm_lt_one 0 hn
      have c1 := hasSum_choose_mul_geometric_of_norm_lt_one 1 hn
      have c2 := hasSum_choose_mul_geometric_of_norm_lt_one 2 hn
      have k1 : ∀ k : Nat, (((k + 1).choose 1 : Nat) : ℝ) = k + 1 := fun k => by rw [Nat.choose_one_right]; push_cast; ring
      have k2 : ∀ k : Nat, (((k + 2).choose 2 : Nat) : ℝ) = (k + 2) * (k + 1) / 2 := fun k => by
        rw [Nat.cast_choose_two]; push_cast; ring
      have hP : HasSum (fun k : Nat => (q ^ 2) ^ k) (1 / (1 - q ^ 2)) := by
        have : (fun k : Nat => (((k + 0).choose 0 : Nat) : ℝ) * (q ^ 2) ^ k) = fun k : Nat => (q ^ 2) ^ k := by
          funext k; simp
        rw [this] at c0
        simpa using c0
      have hM : HasSum (fun k : Nat => (q ^ 2) ^ k * (k * tap : ℝ)) (tap * (1 / (1 - q ^ 2) ^ 2 - 1 / (1 - q ^ 2))) := by
        have := (c1.sub hP).mul_left (tap : ℝ)
        refine this.congr_fun ?_
        intro k
        simp only [k1]
        ring
      have hV : HasSum (fun k : Nat => (q ^ 2) ^ k * (k * tap : ℝ) ^ 2)
          ((tap : ℝ) ^ 2 * (2 * (1 / (1 - q ^ 2) ^ 3) - 3 * (1 / (1 - q ^ 2) ^ 2) + 1 / (1 - q ^ 2))) := by
        have := (((c2.mul_left 2).sub (c1.mul_left 3)).add hP).mul_left ((tap : ℝ) ^ 2)
        refine this.congr_fun ?_
        intro k
        simp only [k1, k2]
        ring
      refine ⟨_, _, _, hP, hM, hV, ?_⟩
      have h1 : 1 - q ^ 2 ≠ 0 := by linarith
      have h2 : r = q / (1 - q ^ 2) := by rw [eq_div_iff h1]; exact hq.symm
      have h3 : (rms : ℝ) = tap * (q / (1 - q ^ 2)) := by
        rw [← h2, hrdef]
        field_simp
      have h4 : 0 < q / (1 - q ^ 2) := div_pos hq0 (by linarith)
      rw [h3, ← Real.sqrt_sq (mul_pos ht' h4).le]
      congr 1
      field_simp
      ring

/-- C76, false of the code: exponential profiles are not normalised, in contrast to all others. As soon as a second path
is kept, the powers sum to more than one and the channel amplifies. -/
theorem C76_exponential_fails (tap rms : ℚ) (c : Common) (draw : ℝ) (sorting : List Nat) (ch : Channel)
    (hs : sorting.Perm (List.range (numTaps (rms / tap)))) (h : exponential tap rms c draw sorting = .ok ch)
    (h2 : 2 ≤ numTaps (rms / tap)) : 1 < ch.power.sum := by
  unfold exponential at h
  split_ifs at h
  rw [(construct_ok h).2]
  dsimp only
  rw [(gather_perm (0 : ℝ) (by simpa using hs)).sum_eq]
  obtain ⟨n, hn⟩ := Nat.exists_eq_add_of_le h2
  rw [hn, List.range_add, List.map_append, List.sum_append, show List.range 2 = [0, 1] from rfl]
  have h0 : 0 ≤ (((List.range n).map fun x => 2 + x).map fun k : Nat => Real.exp (-decay (rms / tap) * k)).sum := by
    refine List.sum_nonneg fun x hx => ?_
    obtain ⟨_, _, rfl⟩ := List.mem_map.mp hx
    positivity
  have h1 := Real.exp_pos (-decay (rms / tap) * (1 : Nat))
  simp only [List.map_cons, List.map_nil, List.sum_cons, List.sum_nil, Nat.cast_zero, mul_zero, Real.exp_zero]
  linarith

/-- C76, false of the code: a delay spread much shorter than the tap interval is accepted but not simulated: only one path
is left. -/
theorem C76_exponential_rms_fails (tap rms : ℚ) (ht : 0 < tap) (hr : 0 < rms) (h : rms ≤ tap / 400) (c : Common) (draw : ℝ)
    (hc : c.Valid) :
    ∃ ch, exponential tap rms c draw [0] = .ok ch ∧ ch.delays = [0] ∧ spread (ch.delays.zip ch.power) = 0 := by
  have ht' : (0 : ℝ) < tap := by exact_mod_cast ht
  have hr' : (0 : ℝ) < rms := by exact_mod_cast hr
  obtain ⟨x, hx0, hx1, hpow, hkeep, _⟩ := (C76_exponential tap rms c draw [0]).2.2.1 ht hr
  have hn : numTaps ((rms : ℝ) / tap) = 1 := by
    obtain ⟨q, hq0, hq1, hq, he, hd⟩ := decay_facts ((rms : ℝ) / tap) (div_pos hr' ht')
    have hx : x = q ^ 2 := by
      have := hpow 1
      rw [exp_decay_pow, he] at this
      simpa using this.symm
    have h1 : (rms : ℝ) / tap ≤ 1 / 400 := by
      rw [div_le_iff₀ ht']
      have : (rms : ℝ) ≤ tap / 400 := by exact_mod_cast h
      linarith
    have h2 : q ≤ 1 / 400 := by
      have : (0 : ℝ) < rms / tap := div_pos hr' ht'
      nlinarith [sq_nonneg q]
    have h3 : ¬ 1 < numTaps ((rms : ℝ) / tap) := by
      rw [hkeep 1, hx, pow_one]
      push Not
      nlinarith
    have h4 : 0 < numTaps ((rms : ℝ) / tap) := by simp [numTaps]
    omega
  obtain ⟨ch, hch⟩ := (C76_exponential tap rms c draw [0]).1 hc ht hr
  refine ⟨ch, hch, ?_⟩
  unfold exponential at hch
  rw [if_neg (not_le.mpr ht), if_neg (not_le.mpr hr)] at hch
  rw [(construct_ok hch).2]
  dsimp only
  rw [hn]
  simp [gather, spread]

example : ∃ ch, exponential 1 1 someCommon 0 [] = .ok ch :=
  (C76_exponential 1 1 someCommon 0 []).1 someCommon_valid (by norm_num) (by norm_num)

/-! ## Antenna correlation -/

/-- `StandardAntennaCorrelation.sample_covariance`, correlation.py 87-106, for a correlation factor and a number of
antennas. -/
noncomputable def standardCovariance (f : ℝ) (n : Nat) : Except PyErr (Nat → Nat → ℝ) :=
  if n = 1 then .ok fun _ _ => 1
  else if n = 2 then .ok fun i j => if i = j then 1 else f
  else if n = 4 then .ok fun i j =>
    match max i j - min i j with
    | 0 => 1
    | 1 => f ^ ((1 : ℝ) / 9)
    | 2 => f ^ ((4 : ℝ) / 9)
    | _ => f
  else .error .runtime

/-- C76: the standard antenna covariances are covariances: symmetric, of unit diagonal and positive semidefinite, for
every correlation factor between zero and one; they exist for one, two and four antennas. -/
theorem C76_standard_covariance (f : ℝ) (h0 : 0 ≤ f) (h1 : f ≤ 1) (n : Nat) :
    (n ∉ [1, 2, 4] → standardCovariance f n = .error .runtime) ∧
    (n ∈ [1, 2, 4] → ∃ R, standardCovariance f n = .ok R ∧ (∀ i j, R i j = R j i) ∧ (∀ i, R i i = 1) ∧
      ∀ v : Nat → ℝ, 0 ≤ ∑ i ∈ range n, ∑ j ∈ range n, v i * R i j * v j) := by
  constructor
  · intro h
    simp only [List.mem_cons, List.not_mem_nil, or_false, not_or] at h
    rw [standardCovariance, if_neg h.1, if_neg h.2.1, if_neg h.2.2]
  · intro h
    simp only [List.mem_cons, List.not_mem_nil, or_false] at h
    rcases h with rfl | rfl | rfl
    · refine ⟨_, rfl, fun _ _ => rfl, fun _ => rfl, fun v => ?_⟩
      simp only [Finset.sum_range_one]
      nlinarith [sq_nonneg (v 0)]
    · refine ⟨_, rfl, fun i j => by simp only [eq_comm], fun i => if_pos rfl, fun v => ?_⟩
      simp only [Finset.sum_range_succ, Finset.sum_range_zero]
      norm_num
      nlinarith [sq_nonneg (v 0 + f * v 1), mul_nonneg (by nlinarith : 0 ≤ 1 - f ^ 2) (sq_nonneg (v 1))]
    · refine ⟨_, rfl, fun i j => by simp only [max_comm, min_comm], fun i => by simp, fun v => ?_⟩
      obtain ⟨a, ha0, ha1, e1, e4, e9⟩ : ∃ a : ℝ, 0 ≤ a ∧ a ≤ 1 ∧ f ^ ((1 : ℝ) / 9) = a ∧ f ^ ((4 : ℝ) / 9) = a ^ 4 ∧
          f = a ^ 9 := by
        refine ⟨f ^ ((1 : ℝ) / 9), Real.rpow_nonneg h0 _, Real.rpow_le_one h0 h1 (by norm_num), rfl, ?_, ?_⟩
        · rw [← Real.rpow_natCast, ← Real.rpow_mul h0]; norm_num
        · rw [← Real.rpow_natCast, ← Real.rpow_mul h0]; norm_num
      simp only [Finset.sum_range_succ, Finset.sum_range_zero]
      norm_num
      rw [show f ^ ((1 : ℝ) / 9) = a from e1, show f ^ ((4 : ℝ) / 9) = a ^ 4 from e4, e9]
      have b2 : 0 ≤ 1 - a ^ 2 := by nlinarith
      have b4 : 0 ≤ 1 - a ^ 4 := by nlinarith [pow_le_one₀ ha0 ha1 (n := 4)]
      have b6 : 0 ≤ 1 - a ^ 6 := by nlinarith [pow_le_one₀ ha0 ha1 (n := 6)]
      have s0 := sq_nonneg (v 0 + a * v 1 + a ^ 4 * v 2 + a ^ 9 * v 3)
      have s1 := mul_nonneg b2 (sq_nonneg (v 1 + (1 + a ^ 2) * a * v 2 + (1 + a ^ 2 + a ^ 4) * a ^ 4 * v 3))
      have s2 := mul_nonneg (mul_nonneg b2 b4) (sq_nonneg (v 2 + (1 + a ^ 2 + a ^ 4) * a * v 3))
      have s3 := mul_nonneg (mul_nonneg (mul_nonneg b2 b4) b6) (sq_nonneg (v 3))
      nlinarith [s0, s1, s2, s3]

/-- The factors of correlation.py 33-43. -/
example : (0 : ℝ) ≤ 0.9 ∧ (0.9 : ℝ) ≤ 1 ∧ (0 : ℝ) ≤ 0.3874 ∧ (0.3874 : ℝ) ≤ 1 := by norm_num

/-- `CustomAntennaCorrelation.sample_covariance`, fading.py 107-117, of a covariance of size `m`. -/
def customCovariance (m : Nat) (R : Nat → Nat → ℂ) (n : Nat) : Except PyErr (Nat × (Nat → Nat → ℂ)) :=
  if m < n then .error .value else .ok (n, R)

/-- The check of the setter, fading.py 125-133: hermitian and positive definite, here of the quadratic form. -/
def PosDef (m : Nat) (R : Nat → Nat → ℂ) : Prop :=
  (∀ i < m, ∀ j < m, R i j = star (R j i)) ∧
    ∀ v : Nat → ℂ, (∃ i < m, v i ≠ 0) → 0 < (∑ i ∈ range m, ∑ j ∈ range m, star (v i) * R i j * v j).re

/-- C76: a device with fewer antennas than a custom covariance has gets the covariance of its first antennas, again
hermitian and positive definite; a device with more is refused. -/
theorem C76_custom_covariance (m : Nat) (R : Nat → Nat → ℂ) (h : PosDef m R) (n : Nat) :
    (m < n → customCovariance m R n = .error .value) ∧
    (n ≤ m → ∃ S, customCovariance m R n = .ok (n, S) ∧ (∀ i < n, ∀ j < n, S i j = R i j) ∧ PosDef n S) := by
  refine ⟨fun hn => by rw [customCovariance, if_pos hn], fun hn => ⟨R, by rw [customCovariance, if_neg (not_lt.mpr hn)],
    fun _ _ _ _ => rfl, fun i hi j hj => h.1 i (by omega) j (by omega), fun v hv => ?_⟩⟩
  obtain ⟨i, hi, hvi⟩ := hv
  have := h.2 (fun k => if k < n then v k else 0) ⟨i, by omega, by simp [hi, hvi]⟩
  convert this using 2
  have hsub : range n ⊆ range m := Finset.range_subset_range.mpr hn
  rw [← Finset.sum_subset hsub]
  · refine Finset.sum_congr rfl fun i hi => ?_
    rw [← Finset.sum_subset hsub]
    · refine Finset.sum_congr rfl fun j hj => ?_
      simp [Finset.mem_range.mp hi, Finset.mem_range.mp hj]
    · intro j _ hj
      simp [Finset.mem_range.not.mp hj]
  · intro i _ hi
    refine Finset.sum_eq_zero fun j _ => ?_
    simp [Finset.mem_range.not.mp hi]

example : PosDef 1 fun _ _ => 1 := by
  refine ⟨fun _ _ _ _ => by simp, fun v ⟨i, hi, hv⟩ => ?_⟩
  obtain rfl : i = 0 := by omega
  simp only [Finset.sum_range_one, mul_one]
  have : star (v 0) * v 0 = (Complex.normSq (v 0) : ℂ) := by
    rw [mul_comm]
    exact Complex.mul_conj _
  rw [this, Complex.ofReal_re]
  exact Complex.normSq_pos.mpr hv

end Verif.Fading
