import Verif.Sim.NoiseSeed
import Mathlib.Data.List.Count
import Mathlib.Data.Int.CardIntervalMod
import Mathlib.Tactic.Linarith

/-!
# C129: seeds of simulation actors

`hermespy/simulation/simulation.py`, `SimulationActor.__init__`: every actor gets a pickled copy of the scenario with all generators
in it, and seeds its copy of the scenario.  Random nodes are those of C39; `rnd` are the numbers of a generator.
-/

namespace Verif.Seeds

open Verif (PyErr)
open Verif.Core
open Verif.NoiseSeed (Child construct model down constructed history_child)

/-! ### Model -/

/-- The generators of actor number `index` of a simulation of a scenario which is node `sc`, `simulation/simulation.py` 214-223 and
`core/pymonte/monte_carlo.py` 365: a copy of all nodes, a number drawn by the scenario, a new seed for the scenario. -/
def actorNodes (rnd : Src → ℕ → ℤ) (R : ℕ) (s : Nodes) (sc index : ℕ) : Except PyErr Nodes :=
  match draw R s sc with
  | .error e => .error e
  | .ok (x, s') => .ok (setSeed s' sc (some (rnd x.1 x.2 + (index : ℤ) * 12345678)))

/-- Draws by node `n` of a scenario during a simulation; `w` lists which actor draws next, as decided by the scheduling of batches
to actors (`MonteCarloActor.run`, `core/pymonte/actors.py` 340-355). -/
def campaign (R n : ℕ) : (ℕ → Nodes) → List ℕ → Except PyErr (List (Src × ℕ))
  | _, [] => .ok []
  | f, a :: w =>
    match draw R (f a) n with
    | .error e => .error e
    | .ok (x, s') => match campaign R n (Function.update f a s') w with
      | .error e => .error e
      | .ok l => .ok (x :: l)

/-- The first nodes of a modem constructed when `n` nodes exist (`TransmittingModem.__init__`, `modem/modem.py` 968-978, 536-547, 562-564,
711 and 722-725): the modem, which is initialized twice, its encoder manager and its source of bits. -/
def modem (n : ℕ) (seed sourceSeed : Option ℤ) : List RndOp :=
  [.new none seed, .seed n seed, .new none none, .mother (n + 1) (some n), .new none sourceSeed, .mother (n + 2) (some n)]

/-- Source of bits of a modem. -/
def bits (n : ℕ) : ℕ := n + 2

/-! ### Generators of actors -/

/-- What `_rng` looks at. -/
def shape (s : Nodes) (n : ℕ) : Option (Option ℕ × Bool) := s.nodes[n]?.map fun nd => (nd.mother, nd.gen.isSome)

theorem rng_congr {s t : Nodes} (h : ∀ n, shape s n = shape t n) (R n : ℕ) : rngNode R s n = rngNode R t n := by
  induction R generalizing n with
  | zero => rfl
  | succ R ih =>
    have hn := h n
    unfold shape at hn
    unfold rngNode
    cases hs : s.nodes[n]? with
    | none =>
      rw [hs] at hn
      cases ht : t.nodes[n]? with
      | none => rfl
      | some nd => rw [ht] at hn; simp at hn
    | some nd =>
      rw [hs] at hn
      cases ht : t.nodes[n]? with
      | none => rw [ht] at hn; simp at hn
      | some md =>
        rw [ht] at hn
        simp only [Option.map_some, Option.some.injEq, Prod.mk.injEq] at hn
        obtain ⟨h1, h2⟩ := hn
        dsimp only
        rw [h1, h2]
        by_cases hg : md.gen.isSome = true
        · rw [if_pos hg, if_pos hg]
        · rw [if_neg hg, if_neg hg]
          cases md.mother with
          | none => rfl
          | some m => exact ih m

theorem shape_set {s : Nodes} {r : ℕ} {nd nd' : Node} {f : ℕ} (hr : s.nodes[r]? = some nd) (h1 : nd'.mother = nd.mother)
    (h2 : nd'.gen.isSome = nd.gen.isSome) (n : ℕ) : shape ⟨s.nodes.set r nd', f⟩ n = shape s n := by
  unfold shape
  by_cases h : r = n
  · subst h
    have hlt : r < s.nodes.length := by
      by_contra hc
      rw [List.getElem?_eq_none (by omega)] at hr; cases hr
    dsimp only
    rw [List.getElem?_set_self hlt, hr]
    simp [h1, h2]
  · dsimp only
    rw [List.getElem?_set_ne h]

/-- A draw by a node whose generator is that of node `r`. -/
theorem draw_root {R n r : ℕ} {s : Nodes} {nd : Node} {g : Src × ℕ} (h : rngNode R s n = .ok r) (hr : s.nodes[r]? = some nd)
    (hg : nd.gen = some g) : draw R s n = .ok (g, ⟨s.nodes.set r (bump nd), s.fresh⟩) := by
  unfold draw
  rw [h]
  dsimp only
  rw [hr]
  dsimp only
  rw [hg]

theorem lt_of_some {s : Nodes} {r : ℕ} {nd : Node} (hr : s.nodes[r]? = some nd) : r < s.nodes.length := by
  by_contra hc
  rw [List.getElem?_eq_none (by omega)] at hr; cases hr

/-- The generators of an actor: those of the scenario as it was, but for that of the scenario. -/
theorem actor_spec (rnd : Src → ℕ → ℤ) (R : ℕ) (s : Nodes) (sc : ℕ) (nd : Node) (g : Src × ℕ) (hs : s.nodes[sc]? = some nd)
    (hg : nd.gen = some g) (i : ℕ) :
    ∃ t, actorNodes rnd (R + 1) s sc i = .ok t ∧ (∀ n, shape t n = shape s n) ∧ t.nodes.length = s.nodes.length ∧
      (∃ nd', t.nodes[sc]? = some nd' ∧ nd'.gen = some (.seeded (rnd g.1 g.2 + (i : ℤ) * 12345678), 0) ∧
        nd'.seed = some (rnd g.1 g.2 + (i : ℤ) * 12345678)) ∧
      ∀ r, r ≠ sc → t.nodes[r]? = s.nodes[r]? := by
  have hroot : rngNode (R + 1) s sc = .ok sc := by
    unfold rngNode; rw [hs]; dsimp only; rw [if_pos (by rw [hg]; rfl)]
  have hlt := lt_of_some hs
  have h1 : (s.nodes.set sc (bump nd))[sc]? = some (bump nd) := List.getElem?_set_self hlt
  unfold actorNodes
  rw [draw_root hroot hs hg]
  dsimp only
  refine ⟨_, rfl, ?_, ?_, ?_, ?_⟩
  · intro n
    unfold setSeed
    dsimp only
    rw [h1]
    dsimp only
    have e1 := fun (nd' : Node) (f : ℕ) (e : nd'.mother = nd.mother) (e' : nd'.gen.isSome = (bump nd).gen.isSome) =>
      shape_set (s := ⟨s.nodes.set sc (bump nd), s.fresh⟩) (nd := bump nd) (nd' := nd') (f := f) h1 e e' n
    refine Eq.trans (e1 _ _ ?_ ?_) ?_
    · rfl
    · simp [bump, hg]
    have hb : (bump nd).gen.isSome = nd.gen.isSome := by simp [bump, hg]
    exact shape_set (nd' := bump nd) hs rfl hb n
  · unfold setSeed; dsimp only; rw [h1]; simp
  · unfold setSeed
    dsimp only
    rw [h1]
    dsimp only
    rw [List.getElem?_set_self (by simpa using hlt)]
    exact ⟨_, rfl, rfl, rfl⟩
  · intro r hr
    unfold setSeed
    dsimp only
    rw [h1]
    dsimp only
    rw [List.getElem?_set_ne (Ne.symm hr), List.getElem?_set_ne (Ne.symm hr)]

/-- C129: all actors of a simulation start, their scenarios are seeded differently, and whatever happens afterwards in each of
them, short of re-seeding, the scenario's own draws come from differently seeded generators. -/
theorem C129_seeds (rnd : Src → ℕ → ℤ) (R : ℕ) (s : Nodes) (sc : ℕ) (nd : Node) (g : Src × ℕ) (hs : s.nodes[sc]? = some nd)
    (hg : nd.gen = some g) (i j : ℕ) (hij : i ≠ j) (p q : List RndOp) (hp : ∀ op ∈ p, ¬ op.resets sc)
    (hq : ∀ op ∈ q, ¬ op.resets sc) :
    ∃ t u v w k l t' u', actorNodes rnd (R + 1) s sc i = .ok t ∧ actorNodes rnd (R + 1) s sc j = .ok u ∧
      draw (R + 1) (p.foldl (RndOp.run (R + 1)) t) sc = .ok ((.seeded v, k), t') ∧
      draw (R + 1) (q.foldl (RndOp.run (R + 1)) u) sc = .ok ((.seeded w, l), u') ∧ v ≠ w := by
  have key : ∀ (i : ℕ) (p : List RndOp), (∀ op ∈ p, ¬ op.resets sc) → ∃ t k t', actorNodes rnd (R + 1) s sc i = .ok t ∧
      draw (R + 1) (p.foldl (RndOp.run (R + 1)) t) sc = .ok ((.seeded (rnd g.1 g.2 + (i : ℤ) * 12345678), k), t') := by
    intro i p hp
    obtain ⟨t, ht, -, -, ⟨nd', h1, h2, -⟩, -⟩ := actor_spec rnd R s sc nd g hs hg i
    obtain ⟨nd2, h3, h4⟩ := history_keeps (R := R + 1) p h1 h2 hp
    refine ⟨t, _, _, ht, draw_root ?_ h3 h4⟩
    unfold rngNode; rw [h3]; dsimp only; rw [if_pos (by rw [h4]; rfl)]
  obtain ⟨t, k, t', h1, h2⟩ := key i p hp
  obtain ⟨u, l, u', h3, h4⟩ := key j q hq
  refine ⟨t, u, _, _, k, l, t', u', h1, h3, h2, h4, fun h => hij ?_⟩
  have : (i : ℤ) * 12345678 = (j : ℤ) * 12345678 := by linarith
  omega

/-! ### Draws during a simulation -/

/-- The draws of a simulation in closed form. -/
theorem campaign_spec (R n r : ℕ) (w : List ℕ) (f : ℕ → Nodes) (src : ℕ → Src) (k : ℕ → ℕ)
    (hf : ∀ a, rngNode R (f a) n = .ok r ∧ ∃ nd, (f a).nodes[r]? = some nd ∧ nd.gen = some (src a, k a)) :
    ∃ l, campaign R n f w = .ok l ∧ l.length = w.length ∧
      ∀ t a, w[t]? = some a → l[t]? = some (src a, k a + (w.take t).count a) := by
  induction w generalizing f k with
  | nil => exact ⟨[], rfl, rfl, fun t a h => by simp at h⟩
  | cons b w ih =>
    obtain ⟨h1, nd, h2, h3⟩ := hf b
    have hd := draw_root h1 h2 h3
    have hlt := lt_of_some h2
    obtain ⟨l, g1, g2, g3⟩ := ih (Function.update f b ⟨(f b).nodes.set r (bump nd), (f b).fresh⟩)
      (Function.update k b (k b + 1)) (by
        intro a
        by_cases ha : a = b
        · subst ha
          simp only [Function.update_self]
          refine ⟨?_, bump nd, List.getElem?_set_self hlt, by simp [bump, h3]⟩
          have hb : (bump nd).gen.isSome = nd.gen.isSome := by simp [bump, h3]
          exact (rng_congr (t := f a) (fun m => shape_set (nd' := bump nd) h2 rfl hb m) R n).trans h1
        · simp only [Function.update_of_ne ha]
          exact hf a)
    refine ⟨(src b, k b) :: l, ?_, by simp [g2], ?_⟩
    · unfold campaign; rw [hd]; dsimp only; rw [g1]
    · intro t a hw
      cases t with
      | zero =>
        have : b = a := by simpa using hw
        subst this; simp
      | succ t =>
        rw [List.getElem?_cons_succ] at hw
        rw [List.getElem?_cons_succ, g3 t a hw, List.take_succ_cons]
        by_cases ha : a = b
        · subst ha
          rw [Function.update_self, List.count_cons_self]
          congr 2; omega
        · rw [Function.update_of_ne ha, List.count_cons_of_ne (Ne.symm ha)]

/-- The nodes of all actors. -/
def actors (rnd : Src → ℕ → ℤ) (R : ℕ) (s : Nodes) (sc : ℕ) (f : ℕ → Nodes) : Prop := ∀ a, actorNodes rnd R s sc a = .ok (f a)

theorem actors_root {rnd : Src → ℕ → ℤ} {R : ℕ} {s : Nodes} {sc : ℕ} {nd : Node} {g : Src × ℕ} (hs : s.nodes[sc]? = some nd)
    (hg : nd.gen = some g) {f : ℕ → Nodes} (hf : actors rnd (R + 1) s sc f) (n r : ℕ) (hn : rngNode (R + 1) s n = .ok r) (a : ℕ) :
    rngNode (R + 1) (f a) n = .ok r ∧
      (r ≠ sc → (f a).nodes[r]? = s.nodes[r]?) ∧
      (r = sc → ∃ md, (f a).nodes[r]? = some md ∧ md.gen = some (.seeded (rnd g.1 g.2 + (a : ℤ) * 12345678), 0)) := by
  obtain ⟨t, h1, h2, -, ⟨nd', h3, h4, -⟩, h5⟩ := actor_spec rnd R s sc nd g hs hg a
  have ht : f a = t := by
    have := hf a
    rw [h1] at this
    injection this with this
    exact this.symm
  rw [ht]
  exact ⟨by rw [rng_congr h2]; exact hn, h5 r, fun h => ⟨nd', h ▸ h3, h4⟩⟩

/-- C129, in part: with a single actor, and for nodes that draw from the scenario's generator, the draws of a simulation depend
only on the seed of the scenario and on the number of draws before, whatever other nodes exist and whatever their state.
Missing: several actors, and nodes with generators of their own. -/
theorem C129_reproducible_partial (rnd : Src → ℕ → ℤ) (R : ℕ) (s : Nodes) (sc n : ℕ) (nd : Node) (v : ℤ) (k : ℕ)
    (hs : s.nodes[sc]? = some nd) (hg : nd.gen = some (.seeded v, k)) (hn : rngNode (R + 1) s n = .ok sc) (f : ℕ → Nodes)
    (hf : actors rnd (R + 1) s sc f) (N : ℕ) :
    campaign (R + 1) n f (List.replicate N 0) = .ok ((List.range N).map fun t => (.seeded (rnd (.seeded v) k), t)) := by
  obtain ⟨l, h1, h2, h3⟩ := campaign_spec (R + 1) n sc (List.replicate N 0) f
    (fun a => .seeded (rnd (.seeded v) k + (a : ℤ) * 12345678)) (fun _ => 0) (fun a => by
      obtain ⟨e1, -, e2⟩ := actors_root hs hg hf n sc hn a
      exact ⟨e1, e2 rfl⟩)
  rw [h1]
  congr 1
  apply List.ext_getElem?
  intro t
  by_cases ht : t < N
  · rw [h3 t 0 (by simp [ht])]
    simp [ht, List.take_replicate, Nat.min_eq_left (le_of_lt ht)]
  · rw [List.getElem?_eq_none (by simp at h2; omega), List.getElem?_eq_none (by simp; omega)]

/-- C129 is false for several actors: the same seeded simulation draws different numbers if batches are scheduled differently;
here the second sample is computed by the first actor or by the second. -/
theorem C129_schedule_fails (rnd : Src → ℕ → ℤ) (R : ℕ) (s : Nodes) (sc n : ℕ) (nd : Node) (v : ℤ) (k : ℕ)
    (hs : s.nodes[sc]? = some nd) (hg : nd.gen = some (.seeded v, k)) (hn : rngNode (R + 1) s n = .ok sc) (f : ℕ → Nodes)
    (hf : actors rnd (R + 1) s sc f) :
    campaign (R + 1) n f [0, 0] = .ok [(.seeded (rnd (.seeded v) k), 0), (.seeded (rnd (.seeded v) k), 1)] ∧
    campaign (R + 1) n f [0, 1] = .ok [(.seeded (rnd (.seeded v) k), 0), (.seeded (rnd (.seeded v) k + 12345678), 0)] := by
  have key := fun w => campaign_spec (R + 1) n sc w f
    (fun a => .seeded (rnd (.seeded v) k + (a : ℤ) * 12345678)) (fun _ => 0) (fun a => by
      obtain ⟨e1, -, e2⟩ := actors_root hs hg hf n sc hn a
      exact ⟨e1, e2 rfl⟩)
  constructor
  · obtain ⟨l, h1, h2, h3⟩ := key [0, 0]
    rw [h1]
    congr 1
    apply List.ext_getElem?
    intro t
    match t with
    | 0 => rw [h3 0 0 rfl]; simp
    | 1 => rw [h3 1 0 rfl]; simp
    | t + 2 => rw [List.getElem?_eq_none (by simp at h2; omega)]; simp
  · obtain ⟨l, h1, h2, h3⟩ := key [0, 1]
    rw [h1]
    congr 1
    apply List.ext_getElem?
    intro t
    match t with
    | 0 => rw [h3 0 0 rfl]; simp
    | 1 => rw [h3 1 1 rfl]; simp
    | t + 2 => rw [List.getElem?_eq_none (by simp at h2; omega)]; simp

/-- C129 is false for nodes with generators of their own: all actors draw the same numbers from them.  If `A` actors take turns,
each draw occurs `A` times. -/
theorem C129_duplicates_fails (rnd : Src → ℕ → ℤ) (R : ℕ) (s : Nodes) (sc n r : ℕ) (nd md : Node) (g x : Src × ℕ)
    (hs : s.nodes[sc]? = some nd) (hg : nd.gen = some g) (hn : rngNode (R + 1) s n = .ok r) (hr : r ≠ sc)
    (hm : s.nodes[r]? = some md) (hx : md.gen = some x) (f : ℕ → Nodes) (hf : actors rnd (R + 1) s sc f) (A N : ℕ) (hA : 0 < A) :
    campaign (R + 1) n f ((List.range N).map (· % A)) = .ok ((List.range N).map fun t => (x.1, x.2 + t / A)) := by
  obtain ⟨l, h1, h2, h3⟩ := campaign_spec (R + 1) n r ((List.range N).map (· % A)) f (fun _ => x.1) (fun _ => x.2) (fun a => by
      obtain ⟨e1, e2, -⟩ := actors_root hs hg hf n r hn a
      exact ⟨e1, md, (e2 hr).trans hm, hx⟩)
  have hc : ∀ t, ((List.range t).map (· % A)).count (t % A) = t / A := by
    intro t
    have aux : ∀ m v, ((List.range m).map (· % A)).count (v % A) = m.count (· ≡ v [MOD A]) := by
      intro m v
      induction m with
      | zero => rfl
      | succ m ih =>
        rw [List.range_succ, List.map_append, List.count_append, ih, Nat.count_succ]
        congr 1
        by_cases h : m % A = v % A
        · rw [if_pos (show m ≡ v [MOD A] from h)]; simp [h]
        · rw [if_neg (show ¬ m ≡ v [MOD A] from h)]; simp [h]
    rw [aux, Nat.count_modEq_card t hA t]
    simp
  rw [h1]
  congr 1
  apply List.ext_getElem?
  intro t
  by_cases ht : t < N
  · rw [h3 t (t % A) (by simp [ht]), ← List.map_take, List.take_range, Nat.min_eq_left (le_of_lt ht), hc]
    simp [ht]
  · rw [List.getElem?_eq_none (by simp at h2; omega), List.getElem?_eq_none (by simp; omega)]

/-- Nodes that neither are the scenario nor drawing from it, in any simulation: the `k`-th draw of an actor is the same for every
actor, however batches are scheduled. -/
theorem own_draws (rnd : Src → ℕ → ℤ) (R : ℕ) (s : Nodes) (sc n r : ℕ) (nd md : Node) (g x : Src × ℕ)
    (hs : s.nodes[sc]? = some nd) (hg : nd.gen = some g) (hn : rngNode (R + 1) s n = .ok r) (hr : r ≠ sc)
    (hm : s.nodes[r]? = some md) (hx : md.gen = some x) (f : ℕ → Nodes) (hf : actors rnd (R + 1) s sc f) (w : List ℕ) :
    ∃ l, campaign (R + 1) n f w = .ok l ∧ l.length = w.length ∧
      ∀ t a, w[t]? = some a → l[t]? = some (x.1, x.2 + (w.take t).count a) :=
  campaign_spec (R + 1) n r w f (fun _ => x.1) (fun _ => x.2) fun a => by
    obtain ⟨e1, e2, -⟩ := actors_root hs hg hf n r hn a
    exact ⟨e1, md, (e2 hr).trans hm, hx⟩

theorem modem_spec (R : ℕ) (s : Nodes) (seed sourceSeed : Option ℤ) :
    let t := (modem s.nodes.length seed sourceSeed).foldl (RndOp.run R) s
    (∀ n < s.nodes.length, t.nodes[n]? = s.nodes[n]?) ∧ Child t (bits s.nodes.length) s.nodes.length ∧
      ∃ nd x, t.nodes[s.nodes.length]? = some nd ∧ nd.gen = some (x, 0) := by
  obtain ⟨l, f⟩ := s
  have hm : ∀ (f : ℕ) (v : Option Int), (mkGen f v).1 = ((mkGen f v).1.1, 0) := by intro f v; cases v <;> rfl
  intro t
  have ht : t.nodes = l ++ [⟨none, some (mkGen (mkGen f seed).2 seed).1, seed⟩,
      ⟨some l.length, none, none⟩, ⟨some l.length, none, sourceSeed⟩] := by
    simp [t, modem, RndOp.run, newNode, setSeed, setMother]
  rw [show (⟨l, f⟩ : Nodes).nodes = l from rfl]
  refine ⟨fun n hn => ?_, ?_, ?_⟩
  · rw [ht, List.getElem?_append_left hn]
  · unfold Child bits
    rw [ht]
    exact ⟨⟨some l.length, none, sourceSeed⟩, by simp, rfl, rfl⟩
  · rw [ht]
    refine ⟨_, (mkGen (mkGen f seed).2 seed).1.1, by simp; rfl, ?_⟩
    exact congrArg some (hm _ _)

/-- C129 is false for the bits transmitted by modems: a modem added to a scenario, with or without a seed, sends the same sequence
of frames in every actor, whatever happens to the scenario in between and however batches are scheduled. -/
theorem C129_bits_fails (rnd : Src → ℕ → ℤ) (R : ℕ) (s : Nodes) (sc : ℕ) (hsc : sc < s.nodes.length) (seed sourceSeed : Option ℤ)
    (ops : List RndOp) (hops : ∀ op ∈ ops, ¬ op.resets (bits s.nodes.length) ∧ ¬ op.resets s.nodes.length) (t : Nodes)
    (ht : t = ops.foldl (RndOp.run (R + 2)) ((modem s.nodes.length seed sourceSeed).foldl (RndOp.run (R + 2)) s))
    (nd : Node) (g : Src × ℕ) (hs : t.nodes[sc]? = some nd) (hg : nd.gen = some g) (f : ℕ → Nodes)
    (hf : actors rnd (R + 2) t sc f) :
    ∃ x k, ∀ w, ∃ l, campaign (R + 2) (bits s.nodes.length) f w = .ok l ∧ l.length = w.length ∧
      ∀ i a, w[i]? = some a → l[i]? = some (x, k + (w.take i).count a) := by
  obtain ⟨-, h1, md, x, h2, h3⟩ := modem_spec (R + 2) s seed sourceSeed
  have c := history_child (R := R + 2) ops h1 fun op h => (hops op h).1
  obtain ⟨md', k1, k2⟩ := history_keeps (R := R + 2) ops h2 h3 fun op h => (hops op h).2
  rw [← ht] at c k1
  obtain ⟨cd, c1, c2, c3⟩ := c
  have hroot : rngNode (R + 2) t (bits s.nodes.length) = .ok s.nodes.length := by
    rw [C39_child (R + 1) t _ _ cd c1 c2 c3]
    unfold rngNode; rw [k1]; dsimp only; rw [if_pos (by rw [k2]; rfl)]
  exact ⟨x, _, own_draws rnd (R + 1) t sc _ _ nd md' g _ hs hg hroot (by omega) k1 k2 f hf⟩

/-- C129 is false for noise: the seeds of noise realizations at a device constructed as usual are drawn from a generator which is the
same in every actor, so that all actors add the same sequence of noise. -/
theorem C129_noise_fails (rnd : Src → ℕ → ℤ) (R : ℕ) (s : Nodes) (sc : ℕ) (hsc : sc < s.nodes.length) (seed modelSeed : Option ℤ)
    (ops : List RndOp) (hops : ∀ op ∈ ops, ¬ op.resets (model s.nodes.length) ∧ ¬ op.resets (down s.nodes.length)) (t : Nodes)
    (ht : t = ops.foldl (RndOp.run (R + 2)) ((construct s.nodes.length seed modelSeed).foldl (RndOp.run (R + 2)) s))
    (nd : Node) (g : Src × ℕ) (hs : t.nodes[sc]? = some nd) (hg : nd.gen = some g) (f : ℕ → Nodes)
    (hf : actors rnd (R + 2) t sc f) :
    ∃ x k, ∀ w, ∃ l, campaign (R + 2) (model s.nodes.length) f w = .ok l ∧ l.length = w.length ∧
      ∀ i a, w[i]? = some a → l[i]? = some (x, k + (w.take i).count a) := by
  obtain ⟨h1, -, ⟨md, e, h2, h3, -, -⟩, -, -⟩ := constructed (R + 2) s seed modelSeed
  have c := history_child (R := R + 2) ops h1 fun op h => (hops op h).1
  obtain ⟨md', k1, k2⟩ := history_keeps (R := R + 2) ops h2 h3 fun op h => (hops op h).2
  rw [← ht] at c k1
  obtain ⟨cd, c1, c2, c3⟩ := c
  have hroot : rngNode (R + 2) t (model s.nodes.length) = .ok (down s.nodes.length) := by
    rw [C39_child (R + 1) t _ _ cd c1 c2 c3]
    unfold rngNode; rw [k1]; dsimp only; rw [if_pos (by rw [k2]; rfl)]
  exact ⟨_, _, own_draws rnd (R + 1) t sc _ _ nd md' g _ hs hg hroot (by unfold down; omega) k1 k2 f hf⟩

/-- A seeded scenario of one device with one modem, and its actors. -/
example : ∃ (s t : Nodes) (nd : Node) (f : ℕ → Nodes), 0 < s.nodes.length ∧
    t = [RndOp.mother 1 (some 0)].foldl (RndOp.run 5) ((modem s.nodes.length none none).foldl (RndOp.run 5) s) ∧
    t.nodes[0]? = some nd ∧ nd.gen = some (.seeded 42, 0) ∧ rngNode 5 t 1 = .ok 0 ∧ rngNode 5 t (bits s.nodes.length) = .ok 2 ∧
    actors (fun _ _ => 7) 5 t 0 f := by
  let s : Nodes := newNode (newNode ⟨[], 0⟩ none (some 42)) none none
  let t : Nodes := ⟨[⟨none, some (.seeded 42, 0), some 42⟩, ⟨some 0, none, none⟩, ⟨none, some (.entropy 2, 0), none⟩,
    ⟨some 2, none, none⟩, ⟨some 2, none, none⟩], 5⟩
  have ht : t = [RndOp.mother 1 (some 0)].foldl (RndOp.run 5) ((modem s.nodes.length none none).foldl (RndOp.run 5) s) := rfl
  have h := actor_spec (fun _ _ => 7) 4 t 0 ⟨none, some (.seeded 42, 0), some 42⟩ (.seeded 42, 0) rfl rfl
  refine ⟨s, t, ⟨none, some (.seeded 42, 0), some 42⟩, fun a => Classical.choose (h a), by decide, ht, rfl, rfl, ?_, ?_,
    fun a => (Classical.choose_spec (h a)).1⟩
  · simp [rngNode, t]
  · simp [rngNode, t, s, bits, newNode]

end Verif.Seeds
