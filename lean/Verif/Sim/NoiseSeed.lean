import Verif.Core.RandomNode
import Mathlib.Tactic.IntervalCases

/-!
# C100: seeds of noise

`hermespy/simulation/simulated_device.py`, `rf/block.py`, `rf/noise/model.py`: which generator the seeds of noise realizations are
drawn from.  Random nodes are those of C39; nodes which are not involved are part of the history before and after.
-/

namespace Verif.NoiseSeed

open Verif.Core

/-- Numbers of the nodes of a device constructed when `n` nodes exist: the device, its noise model, its radio frequency chain, the
digital analog converter and the noise model it makes before it is given the device's, the up-mixer, the analog digital
converter and its first noise model, the down-mixer. -/
def device (n : ℕ) : ℕ := n
def model (n : ℕ) : ℕ := n + 1
def rf (n : ℕ) : ℕ := n + 2
def dac (n : ℕ) : ℕ := n + 3
def up (n : ℕ) : ℕ := n + 5
def adc (n : ℕ) : ℕ := n + 6
def down (n : ℕ) : ℕ := n + 8

/-- `ConverterBase.__init__` and `RFBlock.__init__`, `rf/blocks/ad.py` 46-61, 409-411 and 646-648, `rf/block.py` 100-107: a converter `c`
is initialized twice, first with a noise model of its own, number `c + 1`. -/
def converter (c noise : ℕ) : List RndOp :=
  [.new none none, .new none none, .mother (c + 1) (some c), .seed c none, .mother noise (some c)]

/-- A mixer `m`, `rf/blocks/mixers.py` 237 and `rf/block.py` 100-107. -/
def mixer (m noise : ℕ) : List RndOp := [.new none none, .mother noise (some m)]

/-- `SimulatedDevice.__init__`, lines 1203-1211, 1234, 1242-1276, 1367-1370 and 1300-1303, with a seed for the device and one for
its noise model, for a device in no scenario. -/
def construct (n : ℕ) (seed modelSeed : Option Int) : List RndOp :=
  [.new none seed, .new none modelSeed, .mother (model n) (some (device n)), .new none none, .mother (rf n) (some (device n))] ++
    converter (dac n) (model n) ++ mixer (up n) (model n) ++ converter (adc n) (model n) ++ mixer (down n) (model n)

/-- A node without generator and with mother `m`. -/
def Child (s : Nodes) (n m : ℕ) : Prop := ∃ nd, s.nodes[n]? = some nd ∧ nd.gen = none ∧ nd.mother = some m

theorem child_lt {s : Nodes} {n m : ℕ} (h : Child s n m) : n < s.nodes.length := by
  obtain ⟨nd, h1, -⟩ := h
  by_contra hc
  rw [List.getElem?_eq_none (by omega)] at h1
  cases h1

theorem rngNode_gen {R : ℕ} {s : Nodes} {n r : ℕ} (h : rngNode R s n = .ok r) : ∃ nd, s.nodes[r]? = some nd ∧ nd.gen.isSome := by
  induction R generalizing n with
  | zero => cases h
  | succ R ih =>
    unfold rngNode at h
    split at h
    · cases h
    · next nd hnd =>
      split at h
      · next hg => cases h; exact ⟨nd, hnd, hg⟩
      · split at h
        · cases h
        · exact ih h

theorem run_child {R : ℕ} {s : Nodes} {n m : ℕ} (h : Child s n m) (op : RndOp) (hop : ¬ op.resets n) : Child (op.run R s) n m := by
  have hlt := child_lt h
  obtain ⟨nd, h1, h2, h3⟩ := h
  refine ⟨nd, ?_, h2, h3⟩
  cases op with
  | new m v =>
    show (s.nodes ++ _)[n]? = _
    rw [List.getElem?_append_left hlt]
    exact h1
  | seed k v =>
    have hk : k ≠ n := hop
    show (setSeed s k v).nodes[n]? = _
    unfold setSeed
    split
    · exact h1
    · dsimp only
      rw [List.getElem?_set_ne hk]
      exact h1
  | mother k m =>
    have hk : k ≠ n := hop
    show (setMother s k m).nodes[n]? = _
    unfold setMother
    split
    · exact h1
    · cases m with
      | none => dsimp only; rw [List.getElem?_set_ne hk]; exact h1
      | some m => dsimp only; rw [List.getElem?_set_ne hk]; exact h1
  | draw k =>
    show (match Verif.Core.draw R s k with
      | .ok x => x.2
      | .error _ => s).nodes[n]? = _
    unfold Verif.Core.draw
    cases hr : rngNode R s k with
    | error e => exact h1
    | ok r =>
      obtain ⟨nr, hnr, hg⟩ := rngNode_gen hr
      dsimp only
      rw [hnr]
      dsimp only
      cases hgen : nr.gen with
      | none => exact h1
      | some g =>
        dsimp only
        have hrn : r ≠ n := by
          rintro rfl
          rw [h1] at hnr
          cases hnr
          rw [h2] at hgen
          cases hgen
        rw [List.getElem?_set_ne hrn]
        exact h1

theorem history_child {R n m : ℕ} (ops : List RndOp) {s : Nodes} (h : Child s n m) (hop : ∀ op ∈ ops, ¬ op.resets n) :
    Child (ops.foldl (RndOp.run R) s) n m := by
  induction ops generalizing s with
  | nil => exact h
  | cons op ops ih => exact ih (run_child h op (hop op List.mem_cons_self)) fun op' h' => hop op' (List.mem_cons_of_mem _ h')

/-- A draw by a child of a child of `r`, or of `r`. -/
theorem draw_child {R n m : ℕ} {s : Nodes} (h : Child s n m) (x : Src × ℕ) (nd : Node) (hm : s.nodes[m]? = some nd) (hg : nd.gen = some x) :
    ∃ s', draw (R + 2) s n = .ok (x, s') := by
  obtain ⟨c, h1, h2, h3⟩ := h
  have hr : rngNode (R + 2) s n = .ok m := by
    rw [C39_child (R + 1) s n m c h1 h2 h3]
    unfold rngNode
    rw [hm]
    dsimp only
    rw [if_pos (by rw [hg]; rfl)]
  unfold draw
  rw [hr]
  dsimp only
  rw [hm]
  dsimp only
  rw [hg]
  exact ⟨_, rfl⟩

theorem draw_grandchild {R n m r : ℕ} {s : Nodes} (h : Child s n m) (h' : Child s m r) (x : Src × ℕ) (nd : Node)
    (hm : s.nodes[r]? = some nd) (hg : nd.gen = some x) : ∃ s', draw (R + 3) s n = .ok (x, s') := by
  obtain ⟨c, h1, h2, h3⟩ := h
  obtain ⟨c', h1', h2', h3'⟩ := h'
  have hr : rngNode (R + 3) s n = .ok r := by
    rw [C39_child (R + 2) s n m c h1 h2 h3, C39_child (R + 1) s m r c' h1' h2' h3']
    unfold rngNode
    rw [hm]
    dsimp only
    rw [if_pos (by rw [hg]; rfl)]
  unfold draw
  rw [hr]
  dsimp only
  rw [hm]
  dsimp only
  rw [hg]
  exact ⟨_, rfl⟩

theorem get_after (l tl : List Node) (i : ℕ) : (l ++ tl)[l.length + i]? = tl[i]? := by
  rw [List.getElem?_append_right (by omega), Nat.add_sub_cancel_left]

theorem set_after (l tl : List Node) (i : ℕ) (x : Node) : (l ++ tl).set (l.length + i) x = l ++ tl.set i x := by
  rw [List.set_append, if_neg (by omega), Nat.add_sub_cancel_left]

theorem constructed (R : ℕ) (s : Nodes) (seed modelSeed : Option Int) :
    let t := (construct s.nodes.length seed modelSeed).foldl (RndOp.run R) s
    Child t (model s.nodes.length) (down s.nodes.length) ∧ Child t (rf s.nodes.length) (device s.nodes.length) ∧
      (∃ nd k, t.nodes[down s.nodes.length]? = some nd ∧ nd.gen = some (.entropy k, 0) ∧ s.fresh ≤ k ∧ k < t.fresh) ∧
      t.nodes.length = s.nodes.length + 9 ∧
      ∃ nd, t.nodes[device s.nodes.length]? = some nd ∧ nd.gen = some ((mkGen s.fresh seed).1.1, 0) ∧ nd.mother = none := by
  obtain ⟨l, f⟩ := s
  have hm : ∀ f, mkGen f none = ((.entropy f, 0), f + 1) := fun f => rfl
  have hf : ∀ (f : ℕ) (v : Option Int), f ≤ (mkGen f v).2 := by
    intro f v
    cases v with
    | none => exact Nat.le_succ f
    | some v => exact le_rfl
  have hg : (mkGen f seed).1.2 = 0 := by cases seed <;> rfl
  have e1 := hf f seed
  have e2 := hf (mkGen f seed).2 modelSeed
  simp only [construct, converter, mixer, device, model, rf, dac, up, adc, down, RndOp.run, newNode, setSeed, setMother, List.foldl_cons,
    List.foldl_nil, List.cons_append, List.nil_append, List.append_assoc, Nat.add_assoc, Nat.reduceAdd, get_after, set_after,
    List.getElem?_cons_succ, List.getElem?_cons_zero, List.set_cons_succ, List.set_cons_zero, hm, Child]
  refine ⟨⟨_, rfl, rfl, rfl⟩, ⟨_, rfl, rfl, rfl⟩, ⟨_, _, rfl, rfl, by omega, by omega⟩, by simp, ⟨_, get_after l _ 0, ?_, rfl⟩⟩
  rw [← hg]

/-- C100 fails: whatever the seeds of a device and of its noise model, and whatever nodes are seeded afterwards, the device and its
scenario among them, the seeds of noise realizations are drawn from a generator created from entropy, unless the noise model
is assigned to the device again or the down-mixer is seeded. -/
theorem C100_default_fails (R : ℕ) (s : Nodes) (seed modelSeed : Option Int) (ops : List RndOp)
    (hops : ∀ op ∈ ops, ¬ op.resets (model s.nodes.length) ∧ ¬ op.resets (down s.nodes.length)) :
    ∃ k j s', draw (R + 2) (ops.foldl (RndOp.run (R + 2)) ((construct s.nodes.length seed modelSeed).foldl (RndOp.run (R + 2)) s))
      (model s.nodes.length) = .ok ((.entropy k, j), s') ∧ s.fresh ≤ k := by
  obtain ⟨h1, -, ⟨nd, k, h2, h3, h4, -⟩, -, -⟩ := constructed (R + 2) s seed modelSeed
  have c := history_child (R := R + 2) ops h1 fun op h => (hops op h).1
  obtain ⟨nd', k1, k2⟩ := history_keeps (R := R + 2) ops h2 h3 fun op h => (hops op h).2
  obtain ⟨s', hs⟩ := draw_child (R := R) c _ nd' k1 k2
  exact ⟨k, _, s', hs, h4⟩

theorem run_fresh (R : ℕ) (s : Nodes) (op : RndOp) : s.fresh ≤ (op.run R s).fresh := by
  have hf : ∀ (f : ℕ) (v : Option Int), f ≤ (mkGen f v).2 := by
    intro f v
    cases v with
    | none => exact Nat.le_succ f
    | some v => exact le_rfl
  cases op with
  | new m v => exact hf _ _
  | seed k v => show _ ≤ (setSeed s k v).fresh; unfold setSeed; split; exacts [le_rfl, hf _ _]
  | mother k m =>
    show _ ≤ (setMother s k m).fresh
    unfold setMother
    split
    · exact le_rfl
    · cases m
      · exact hf _ _
      · exact le_rfl
  | draw k =>
    show _ ≤ (match Verif.Core.draw R s k with
      | .ok x => x.2
      | .error _ => s).fresh
    unfold Verif.Core.draw
    split
    · next h =>
      repeat' split at h
      all_goals first | cases h; simp | cases h
    · exact le_rfl

theorem history_fresh (R : ℕ) (ops : List RndOp) (s : Nodes) : s.fresh ≤ (ops.foldl (RndOp.run R) s).fresh := by
  induction ops generalizing s with
  | nil => exact le_rfl
  | cons op ops ih => exact le_trans (run_fresh R s op) (ih _)

/-- C100 fails: two devices constructed alike and seeded alike do not draw the same noise: their realizations are drawn from
different generators, neither of which depends on the seeds. -/
theorem C100_repeat_fails (R : ℕ) (s : Nodes) (seed modelSeed : Option Int) (between : List RndOp) (v : Int) (t : Nodes)
    (ht : t = between.foldl (RndOp.run (R + 2)) ((construct s.nodes.length seed modelSeed).foldl (RndOp.run (R + 2)) s))
    (hb : ∀ op ∈ between, ¬ op.resets (model s.nodes.length) ∧ ¬ op.resets (down s.nodes.length)) (hlen : s.nodes.length + 9 ≤ t.nodes.length) :
    let u := ((construct t.nodes.length seed modelSeed) ++ [RndOp.seed (device s.nodes.length) (some v), .seed (device t.nodes.length) (some v)]).foldl
      (RndOp.run (R + 2)) t
    ∃ k j k' j' u' u'', draw (R + 2) u (model s.nodes.length) = .ok ((.entropy k, j), u') ∧
      draw (R + 2) u (model t.nodes.length) = .ok ((.entropy k', j'), u'') ∧ k < k' := by
  intro u
  obtain ⟨h1, -, ⟨nd, k, h2, h3, h4, h5⟩, -, -⟩ := constructed (R + 2) s seed modelSeed
  obtain ⟨g1, -, ⟨nd', k', g2, g3, g4, -⟩, -, -⟩ := constructed (R + 2) t seed modelSeed
  have hfr : k < k' := by
    have := history_fresh (R + 2) between ((construct s.nodes.length seed modelSeed).foldl (RndOp.run (R + 2)) s)
    rw [← ht] at this
    omega
  have hnew : ∀ op ∈ (construct t.nodes.length seed modelSeed) ++ [.seed (device s.nodes.length) (some v), .seed (device t.nodes.length) (some v)],
      ¬ op.resets (model s.nodes.length) ∧ ¬ op.resets (down s.nodes.length) := by
    intro op hop
    simp only [construct, converter, mixer, device, model, rf, dac, up, adc, down, List.cons_append, List.nil_append, List.mem_cons,
      List.not_mem_nil, or_false] at hop
    rcases hop with rfl | rfl | rfl | rfl | rfl | rfl | rfl | rfl | rfl | rfl | rfl | rfl | rfl | rfl | rfl | rfl | rfl | rfl | rfl | rfl | rfl <;>
      simp only [RndOp.resets, model, down, not_false_eq_true, and_self] <;> omega
  obtain ⟨u', hu'⟩ := draw_child (R := R)
    (history_child (R := R + 2) (between ++ ((construct t.nodes.length seed modelSeed) ++
      [.seed (device s.nodes.length) (some v), .seed (device t.nodes.length) (some v)])) h1 fun op h => by
        rcases List.mem_append.mp h with h | h
        exacts [(hb op h).1, (hnew op h).1])
    _ _ (history_keeps (R := R + 2) (between ++ ((construct t.nodes.length seed modelSeed) ++
      [.seed (device s.nodes.length) (some v), .seed (device t.nodes.length) (some v)])) h2 h3 fun op h => by
        rcases List.mem_append.mp h with h | h
        exacts [(hb op h).2, (hnew op h).2]).choose_spec.1
      (history_keeps (R := R + 2) (between ++ ((construct t.nodes.length seed modelSeed) ++
      [.seed (device s.nodes.length) (some v), .seed (device t.nodes.length) (some v)])) h2 h3 fun op h => by
        rcases List.mem_append.mp h with h | h
        exacts [(hb op h).2, (hnew op h).2]).choose_spec.2
  have hlast : ∀ op ∈ [RndOp.seed (device s.nodes.length) (some v), .seed (device t.nodes.length) (some v)],
      ¬ op.resets (model t.nodes.length) ∧ ¬ op.resets (down t.nodes.length) := by
    intro op hop
    simp only [List.mem_cons, List.not_mem_nil, or_false] at hop
    rcases hop with rfl | rfl <;> simp only [RndOp.resets, model, down, device] <;> omega
  obtain ⟨nd'', k1, k2⟩ := history_keeps (R := R + 2) _ g2 g3 fun op h => (hlast op h).2
  obtain ⟨u'', hu''⟩ := draw_child (R := R) (history_child (R := R + 2) _ g1 fun op h => (hlast op h).1) _ nd'' k1 k2
  rw [List.foldl_append, ← ht] at hu'
  rw [← List.foldl_append] at hu''
  exact ⟨_, _, _, _, _, _, hu', hu'', hfr⟩

/-- Two runs with all the same seeds draw from different entropy. -/
example : ∃ op : RndOp, ¬ op.resets (model 0) ∧ ¬ op.resets (down 0) ∧ op = .seed (device 0) (some 42) :=
  ⟨_, by simp [RndOp.resets, model, device], by simp [RndOp.resets, down, device], rfl⟩

/-- C100, assigned models: once a noise model is assigned to a device after construction (lines 1367-1370), and the device is
seeded, the seeds of noise realizations are those of the generator seeded so, in the order of the draws from it, whatever
happened before and happens otherwise. -/
theorem C100_assigned_partial (R : ℕ) (s : Nodes) (d m : ℕ) (hd : d < s.nodes.length) (hm : m < s.nodes.length) (hdm : m ≠ d) (v : Int)
    (between ops : List RndOp) (hb : ∀ op ∈ between, ¬ op.resets m) (hops : ∀ op ∈ ops, ¬ op.resets m ∧ ¬ op.resets d) :
    let t := between.foldl (RndOp.run (R + 2)) (RndOp.run (R + 2) s (.mother m (some d)))
    ∃ s', draw (R + 2) (ops.foldl (RndOp.run (R + 2)) (setSeed t d (some v))) m =
      .ok ((.seeded v, drawCount (R + 2) d (setSeed t d (some v)) ops), s') := by
  intro t
  have h1 : Child (RndOp.run (R + 2) s (.mother m (some d))) m d := by
    refine ⟨{ s.nodes[m] with
        gen := none
        mother := some d }, ?_, rfl, rfl⟩
    show (setMother s m (some d)).nodes[m]? = _
    unfold setMother
    rw [List.getElem?_eq_getElem hm]
    dsimp only
    rw [List.getElem?_set_self hm]
  have h2 : Child t m d := history_child (R := R + 2) between h1 hb
  have h3 : Child (setSeed t d (some v)) m d := run_child (R := R + 2) h2 (.seed d (some v)) (by simp only [RndOp.resets]; exact fun h => hdm h.symm)
  have h4 := history_child (R := R + 2) ops h3 fun op h => (hops op h).1
  have hlen : ∀ (ops : List RndOp) (s : Nodes), s.nodes.length ≤ (ops.foldl (RndOp.run (R + 2)) s).nodes.length := by
    intro ops
    induction ops with
    | nil => intro s; exact le_rfl
    | cons op ops ih =>
      intro s
      refine le_trans ?_ (ih (op.run (R + 2) s))
      cases op with
      | new m v => show _ ≤ (s.nodes ++ _).length; simp
      | seed k v => show _ ≤ (setSeed s k v).nodes.length; unfold setSeed; split <;> simp
      | mother k m => show _ ≤ (setMother s k m).nodes.length; unfold setMother; split <;> [simp; cases m <;> simp]
      | draw k =>
        show _ ≤ (match Verif.Core.draw (R + 2) s k with
          | .ok x => x.2
          | .error _ => s).nodes.length
        unfold Verif.Core.draw
        split
        · next h =>
          repeat' split at h
          all_goals first | cases h; simp | cases h
        · exact le_rfl
  have hdt : d < t.nodes.length := by
    have := hlen (.mother m (some d) :: between) s
    exact lt_of_lt_of_le hd this
  have e : t.nodes[d]? = some t.nodes[d] := List.getElem?_eq_getElem hdt
  have h5 : (setSeed t d (some v)).nodes[d]? = some { t.nodes[d] with
      gen := some (.seeded v, 0)
      seed := some v } := by
    unfold setSeed
    rw [e]
    dsimp only
    rw [List.getElem?_set_self hdt]
    rfl
  obtain ⟨nd', k1, k2⟩ := history_keeps (R := R + 2) ops h5 rfl fun op h => (hops op h).2
  rw [Nat.zero_add] at k2
  exact draw_child (R := R) h4 _ nd' k1 k2

/-- C100, scenarios: so it is if the device belongs to a scenario, and the scenario is seeded, unless the device itself is. -/
theorem C100_scenario_partial (R : ℕ) (s : Nodes) (c d m : ℕ) (hm : Child s m d) (hd : Child s d c) (hc : c < s.nodes.length)
    (hcd : c ≠ d) (hcm : c ≠ m) (v : Int) (ops : List RndOp) (hops : ∀ op ∈ ops, ¬ op.resets m ∧ ¬ op.resets d ∧ ¬ op.resets c) :
    ∃ s', draw (R + 3) (ops.foldl (RndOp.run (R + 3)) (setSeed s c (some v))) m =
      .ok ((.seeded v, drawCount (R + 3) c (setSeed s c (some v)) ops), s') := by
  have h1 : Child (setSeed s c (some v)) m d := run_child (R := R + 3) hm (.seed c (some v)) hcm
  have h2 : Child (setSeed s c (some v)) d c := run_child (R := R + 3) hd (.seed c (some v)) hcd
  have h3 := history_child (R := R + 3) ops h1 fun op h => (hops op h).1
  have h4 := history_child (R := R + 3) ops h2 fun op h => (hops op h).2.1
  have h5 : (setSeed s c (some v)).nodes[c]? = some { s.nodes[c] with
      gen := some (.seeded v, 0)
      seed := some v } := by
    unfold setSeed
    rw [List.getElem?_eq_getElem hc]
    dsimp only
    rw [List.getElem?_set_self hc]
    rfl
  obtain ⟨nd', k1, k2⟩ := history_keeps (R := R + 3) ops h5 rfl fun op h => (hops op h).2.2
  rw [Nat.zero_add] at k2
  exact draw_grandchild (R := R) h3 h4 _ nd' k1 k2

/-- C100 fails: the seed a noise model is created with is not used once the model is assigned to a device, or a block. -/
theorem C100_model_fails (R : ℕ) (s : Nodes) (d : ℕ) (v w : Int) (nd : Node) (j : ℕ) (hd : s.nodes[d]? = some nd)
    (hg : nd.gen = some (.seeded w, j)) :
    ∃ s', draw (R + 2) ([RndOp.new none (some v), .mother s.nodes.length (some d)].foldl (RndOp.run (R + 2)) s) s.nodes.length =
      .ok ((.seeded w, j), s') := by
  have hlt : d < s.nodes.length := by
    by_contra hc
    rw [List.getElem?_eq_none (by omega)] at hd
    cases hd
  refine draw_child (R := R) (m := d) ⟨⟨some d, none, some v⟩, ?_, rfl, rfl⟩ _ nd ?_ hg
  · simp [RndOp.run, newNode, setMother]
  · simp [RndOp.run, newNode, setMother, List.getElem?_append_left hlt, hd]

/-- The noise of the first device created with seed 3, and seeded again, draws the
entropy of its down-mixer. -/
example : (draw 10 ((construct 0 (some 3) none ++ [RndOp.seed (device 0) (some 5)]).foldl (RndOp.run 10) ⟨[], 0⟩) (model 0)).toOption.map (·.1) =
    some (.entropy 9, 0) := by decide +kernel

/-- Assigning a model to it afterwards, the model draws from the device's seed. -/
example : (draw 10 ((construct 0 (some 3) none ++ [RndOp.new none none, .mother 9 (some 0), .seed (device 0) (some 5), .draw 9]).foldl (RndOp.run 10)
    ⟨[], 0⟩) 9).toOption.map (·.1) = some (.seeded 5, 1) := by decide +kernel

/-- A scenario, number 0, a device, 1, and a model, 2: the hypotheses of `C100_scenario_partial` hold, the scenario's seed is drawn from. -/
example : Child ([RndOp.new none none, .new (some 0) none, .new none (some 7), .mother 1 (some 0), .mother 2 (some 1)].foldl (RndOp.run 10) ⟨[], 0⟩) 2 1 ∧
    Child ([RndOp.new none none, .new (some 0) none, .new none (some 7), .mother 1 (some 0), .mother 2 (some 1)].foldl (RndOp.run 10) ⟨[], 0⟩) 1 0 :=
  ⟨⟨_, rfl, rfl, rfl⟩, ⟨_, rfl, rfl, rfl⟩⟩

/-- A second device, constructed and seeded as the first, draws other noise. -/
example : (draw 10 ((construct 0 (some 3) none ++ construct 9 (some 3) none ++ [RndOp.seed 0 (some 5), .seed 9 (some 5)]).foldl (RndOp.run 10) ⟨[], 0⟩)
    (model 9)).toOption.map (·.1) = some (.entropy 19, 0) := by decide +kernel

end Verif.NoiseSeed
