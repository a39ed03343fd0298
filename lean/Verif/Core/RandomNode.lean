import Verif.Np
import Mathlib.Data.List.Basic
import Mathlib.Tactic.Common

/-!
# C39: random nodes

`core/random_node.py`.  A generator is what it was seeded with and how many numbers were drawn from
it; the numbers themselves are an arbitrary function `rnd` of both.  `default_rng(None)` takes a new
source of entropy each time.
-/

namespace Verif.Core

/-- What a generator was created from. -/
inductive Src
  | seeded (v : Int)
  | entropy (k : Nat)
  deriving DecidableEq

/-- A random node: `__mother_node`, `__generator` (source and number of draws), `__seed`. -/
structure Node where
  mother : Option Nat
  gen : Option (Src × Nat)
  seed : Option Int

/-- All nodes, and the number of times entropy was used. -/
structure Nodes where
  nodes : List Node
  fresh : Nat

/-- `default_rng`. -/
def mkGen (fresh : Nat) : Option Int → (Src × Nat) × Nat
  | some v => ((.seeded v, 0), fresh)
  | none => ((.entropy fresh, 0), fresh + 1)

/-- `RandomNode.__init__`, `core/random_node.py` 74-87: the seed setter creates a generator, then the
mother is stored. -/
def newNode (s : Nodes) (mother : Option Nat) (seed : Option Int) : Nodes :=
  ⟨s.nodes ++ [⟨mother, some (mkGen s.fresh seed).1, seed⟩], (mkGen s.fresh seed).2⟩

/-- The `seed` setter, `core/random_node.py` 126-129. -/
def setSeed (s : Nodes) (n : Nat) (v : Option Int) : Nodes :=
  match s.nodes[n]? with
  | none => s
  | some nd =>
    ⟨s.nodes.set n { nd with
        gen := some (mkGen s.fresh v).1
        seed := v }, (mkGen s.fresh v).2⟩

/-- The `random_mother` setter, `core/random_node.py` 143-148. -/
def setMother (s : Nodes) (n : Nat) (m : Option Nat) : Nodes :=
  match s.nodes[n]? with
  | none => s
  | some nd => match m with
    | none =>
      ⟨s.nodes.set n { nd with
          gen := some (mkGen s.fresh nd.seed).1
          mother := none }, (mkGen s.fresh nd.seed).2⟩
    | some m =>
      { s with
        nodes := s.nodes.set n { nd with
          gen := none
          mother := some m } }

/-- The node whose generator `_rng` returns, `core/random_node.py` 89-104.  A child without a mother
raises an `AttributeError`, a cycle of mothers exhausts the recursion limit `R`. -/
def rngNode : Nat → Nodes → Nat → Except PyErr Nat
  | 0, _, _ => .error .recursion
  | R + 1, s, n => match s.nodes[n]? with
    | none => .error .attribute
    | some nd => if nd.gen.isSome then .ok n
      else match nd.mother with
        | none => .error .attribute
        | some m => rngNode R s m

/-- One more draw from a node's own generator. -/
def bump (nd : Node) : Node := { nd with gen := nd.gen.map (fun g => (g.1, g.2 + 1)) }

/-- A draw by node `n`: the node whose generator is used, the draw (source and number), and the nodes
afterwards. -/
def draw (R : Nat) (s : Nodes) (n : Nat) : Except PyErr ((Src × Nat) × Nodes) :=
  match rngNode R s n with
  | .error e => .error e
  | .ok r => match s.nodes[r]? with
    | none => .error .attribute
    | some nd => match nd.gen with
      | none => .error .attribute
      | some g => .ok (g, { s with nodes := s.nodes.set r (bump nd) })

/-- Operations on random nodes. -/
inductive RndOp
  | new (mother : Option Nat) (seed : Option Int)
  | seed (n : Nat) (v : Option Int)
  | mother (n : Nat) (m : Option Nat)
  | draw (n : Nat)

/-- One operation; failing draws change nothing. -/
def RndOp.run (R : Nat) (s : Nodes) : RndOp → Nodes
  | .new m v => newNode s m v
  | .seed n v => setSeed s n v
  | .mother n m => setMother s n m
  | .draw n => match Verif.Core.draw R s n with
    | .ok x => x.2
    | .error _ => s

/-- The operation re-seeds the node or gives it a mother. -/
def RndOp.resets (n : Nat) : RndOp → Prop
  | .seed k _ => k = n
  | .mother k _ => k = n
  | _ => False

/-- Does the operation draw from the generator of node `n`? -/
def RndOp.drawsFrom (R : Nat) (s : Nodes) (n : Nat) : RndOp → Bool
  | .draw k => match rngNode R s k with
    | .ok r => r == n
    | .error _ => false
  | _ => false

/-- Number of draws from the generator of node `n` during a history. -/
def drawCount (R : Nat) (n : Nat) : Nodes → List RndOp → Nat
  | _, [] => 0
  | s, op :: ops => (if op.drawsFrom R s n then 1 else 0) + drawCount R n (op.run R s) ops

theorem run_keeps {R n : Nat} {s : Nodes} {nd : Node} {g : Src × Nat} (hn : s.nodes[n]? = some nd)
    (hg : nd.gen = some g) (op : RndOp) (h : ¬ op.resets n) :
    ∃ nd', (op.run R s).nodes[n]? = some nd' ∧
      nd'.gen = some (g.1, g.2 + if op.drawsFrom R s n then 1 else 0) := by
  have hlt : n < s.nodes.length := by
    by_contra hc
    rw [List.getElem?_eq_none (by omega)] at hn; cases hn
  cases op with
  | new m v =>
    refine ⟨nd, ?_, by simpa [RndOp.drawsFrom] using hg⟩
    show (s.nodes ++ _)[n]? = _
    rw [List.getElem?_append_left hlt]; exact hn
  | seed k v =>
    refine ⟨nd, ?_, by simpa [RndOp.drawsFrom] using hg⟩
    have hk : k ≠ n := h
    show (setSeed s k v).nodes[n]? = _
    unfold setSeed
    split
    · exact hn
    · dsimp only; rw [List.getElem?_set_ne hk]; exact hn
  | mother k m =>
    refine ⟨nd, ?_, by simpa [RndOp.drawsFrom] using hg⟩
    have hk : k ≠ n := h
    show (setMother s k m).nodes[n]? = _
    unfold setMother
    split
    · exact hn
    · cases m with
      | none => dsimp only; rw [List.getElem?_set_ne hk]; exact hn
      | some m => dsimp only; rw [List.getElem?_set_ne hk]; exact hn
  | draw k =>
    cases hr : rngNode R s k with
    | error e =>
      simp only [RndOp.run, RndOp.drawsFrom, Verif.Core.draw, hr]
      exact ⟨nd, hn, by simpa using hg⟩
    | ok r =>
      simp only [RndOp.run, RndOp.drawsFrom, Verif.Core.draw, hr]
      by_cases hrn : r = n
      · subst hrn
        rw [hn]
        dsimp only
        rw [hg]
        refine ⟨bump nd, ?_, ?_⟩
        · dsimp only; rw [List.getElem?_set_self hlt]
        · simp [bump, hg]
      · have hb : (r == n) = false := by simpa using hrn
        rw [hb]
        refine ⟨nd, ?_, by simpa using hg⟩
        cases hx : s.nodes[r]? with
        | none => exact hn
        | some nr =>
          dsimp only
          cases nr.gen with
          | none => exact hn
          | some g' => dsimp only; rw [List.getElem?_set_ne hrn]; exact hn

theorem history_keeps {R n : Nat} (ops : List RndOp) {s : Nodes} {nd : Node} {g : Src × Nat}
    (hn : s.nodes[n]? = some nd) (hg : nd.gen = some g) (h : ∀ op ∈ ops, ¬ op.resets n) :
    ∃ nd', (ops.foldl (RndOp.run R) s).nodes[n]? = some nd' ∧
      nd'.gen = some (g.1, g.2 + drawCount R n s ops) := by
  induction ops generalizing s nd g with
  | nil => exact ⟨nd, hn, by simpa [drawCount] using hg⟩
  | cons op ops ih =>
    obtain ⟨nd1, h1, h2⟩ := run_keeps (R := R) hn hg op (h op List.mem_cons_self)
    obtain ⟨nd2, h3, h4⟩ := ih h1 h2 (fun op' h' => h op' (List.mem_cons_of_mem _ h'))
    refine ⟨nd2, h3, ?_⟩
    rw [h4]
    simp only [drawCount]
    congr 2
    omega

/-- **C39** (seeding): after setting the seed of an existing node to `v`, and any further history which
does not reset that node, a draw by the node is number `k` of the generator seeded with `v`, `k` being
the number of draws made from this generator since.  Nothing else in the history matters: not the
nodes' state before, nor other nodes' seeds and draws. -/
theorem C39_seed_determines (R : Nat) (s : Nodes) (n : Nat) (v : Int) (hn : n < s.nodes.length)
    (ops : List RndOp) (h : ∀ op ∈ ops, ¬ op.resets n) :
    ∃ s', draw (R + 1) (ops.foldl (RndOp.run (R + 1)) (setSeed s n (some v))) n =
      .ok ((.seeded v, drawCount (R + 1) n (setSeed s n (some v)) ops), s') := by
  have e : s.nodes[n]? = some s.nodes[n] := List.getElem?_eq_getElem hn
  have h1 : (setSeed s n (some v)).nodes[n]? = some { s.nodes[n] with
      gen := some (.seeded v, 0)
      seed := some v } := by
    unfold setSeed
    rw [e]
    dsimp only
    rw [List.getElem?_set_self hn]
    rfl
  obtain ⟨nd', h2, h3⟩ := history_keeps (R := R + 1) ops h1 rfl h
  have hr : rngNode (R + 1) (ops.foldl (RndOp.run (R + 1)) (setSeed s n (some v))) n = .ok n := by
    unfold rngNode
    rw [h2]
    dsimp only
    rw [if_pos (by rw [h3]; rfl)]
  rw [Nat.zero_add] at h3
  unfold draw
  rw [hr]
  dsimp only
  rw [h2]
  dsimp only
  rw [h3]
  exact ⟨_, rfl⟩

/-- **C39** (reproducibility): two processes in arbitrary states which seed a node alike and then draw
from it alone get the same numbers. -/
theorem C39_reproducible (R : Nat) (rnd : Src → Nat → Int) (s t : Nodes) (n m : Nat) (v : Int)
    (hn : n < s.nodes.length) (hm : m < t.nodes.length) (k : Nat) :
    ∃ x s' t', draw (R + 1) ((List.replicate k (RndOp.draw n)).foldl (RndOp.run (R + 1))
        (setSeed s n (some v))) n = .ok (x, s') ∧
      draw (R + 1) ((List.replicate k (RndOp.draw m)).foldl (RndOp.run (R + 1))
        (setSeed t m (some v))) m = .ok (x, t') ∧ rnd x.1 x.2 = rnd (.seeded v) k := by
  have cnt : ∀ (s : Nodes) (n : Nat), n < s.nodes.length → ∀ (k : Nat) (nd : Node) (g : Src × Nat),
      s.nodes[n]? = some nd → nd.gen = some g →
      drawCount (R + 1) n s (List.replicate k (RndOp.draw n)) = k := by
    intro s n _ k
    induction k generalizing s with
    | zero => intro nd g _ _; rfl
    | succ k ih =>
      intro nd g h1 h2
      obtain ⟨nd', h3, h4⟩ := run_keeps (R := R + 1) h1 h2 (.draw n) (by simp [RndOp.resets])
      have hlt' : n < ((RndOp.draw n).run (R + 1) s).nodes.length := by
        by_contra hc
        rw [List.getElem?_eq_none (by omega)] at h3; cases h3
      rw [List.replicate_succ, drawCount, ih _ hlt' nd' _ h3 h4]
      have : (RndOp.draw n).drawsFrom (R + 1) s n = true := by
        simp only [RndOp.drawsFrom, rngNode, h1]
        rw [if_pos (by rw [h2]; rfl)]
        simp
      rw [this]
      simp; omega
  have start : ∀ (s : Nodes) (n : Nat), n < s.nodes.length → ∃ nd, (setSeed s n (some v)).nodes[n]? = some nd ∧
      nd.gen = some (.seeded v, 0) ∧ n < (setSeed s n (some v)).nodes.length := by
    intro s n hn
    have e : s.nodes[n]? = some s.nodes[n] := List.getElem?_eq_getElem hn
    refine ⟨{ s.nodes[n] with
      gen := some (.seeded v, 0)
      seed := some v }, ?_, rfl, ?_⟩
    · unfold setSeed
      rw [e]
      dsimp only
      rw [List.getElem?_set_self hn]; rfl
    · unfold setSeed
      rw [e]
      simpa using hn
  obtain ⟨n1, a1, a2, a3⟩ := start s n hn
  obtain ⟨m1, b1, b2, b3⟩ := start t m hm
  have nr : ∀ n, ∀ op ∈ List.replicate k (RndOp.draw n), ¬ op.resets n := by
    intro n op hop
    rw [List.eq_of_mem_replicate hop]; simp [RndOp.resets]
  obtain ⟨s', hs⟩ := C39_seed_determines R s n v hn _ (nr n)
  obtain ⟨t', ht⟩ := C39_seed_determines R t m v hm _ (nr m)
  rw [cnt _ n a3 k n1 _ a1 a2] at hs
  rw [cnt _ m b3 k m1 _ b1 b2] at ht
  exact ⟨_, s', t', hs, ht, rfl⟩

/-- **C39** (mothers): a node given a mother by the setter draws from the generator the mother draws
from, so do all nodes below. -/
theorem C39_mother (R : Nat) (s : Nodes) (c m : Nat) (hc : c < s.nodes.length) (hcm : c ≠ m) :
    rngNode (R + 1) (setMother s c (some m)) c = rngNode R (setMother s c (some m)) m := by
  have e : s.nodes[c]? = some s.nodes[c] := List.getElem?_eq_getElem hc
  have h1 : (setMother s c (some m)).nodes[c]? = some { s.nodes[c] with
      gen := none
      mother := some m } := by
    unfold setMother
    rw [e]
    dsimp only
    rw [List.getElem?_set_self hc]
  conv_lhs => unfold rngNode
  rw [h1]
  rfl

/-- Any child in the state the setter leaves draws from where its mother draws. -/
theorem C39_child (R : Nat) (s : Nodes) (c m : Nat) (nd : Node) (hc : s.nodes[c]? = some nd)
    (hg : nd.gen = none) (hm : nd.mother = some m) : rngNode (R + 1) s c = rngNode R s m := by
  conv_lhs => unfold rngNode
  rw [hc]
  dsimp only
  rw [if_neg (by rw [hg]; simp), hm]

/-- **C39** fails for mothers given to the constructor: the node has a mother but draws from its own
generator, not the mother's. -/
theorem C39_constructor_mother_fails (R : Nat) (s : Nodes) (m : Nat) (v : Option Int) :
    ∃ nd, (newNode s (some m) v).nodes[s.nodes.length]? = some nd ∧ nd.mother = some m ∧
      rngNode (R + 1) (newNode s (some m) v) s.nodes.length = .ok s.nodes.length := by
  refine ⟨_, by simp [newNode]; rfl, rfl, ?_⟩
  unfold rngNode
  simp [newNode]

/-- **C39** fails for children which are seeded: the node keeps its mother but no longer draws from the
mother's generator. -/
theorem C39_reseeded_child_fails (R : Nat) (s : Nodes) (c : Nat) (v : Option Int) (nd : Node)
    (hc : s.nodes[c]? = some nd) :
    (∃ nd', (setSeed s c v).nodes[c]? = some nd' ∧ nd'.mother = nd.mother) ∧
    rngNode (R + 1) (setSeed s c v) c = .ok c := by
  have hlt : c < s.nodes.length := by
    by_contra hcon
    rw [List.getElem?_eq_none (by omega)] at hc; cases hc
  have h1 : (setSeed s c v).nodes[c]? = some { nd with
      gen := some (mkGen s.fresh v).1
      seed := v } := by
    unfold setSeed
    rw [hc]
    dsimp only
    rw [List.getElem?_set_self hlt]
  refine ⟨⟨_, h1, rfl⟩, ?_⟩
  unfold rngNode
  rw [h1]
  rfl

/-- The operation sets the seed of the node. -/
def RndOp.seeds (n : Nat) : RndOp → Prop
  | .seed k _ => k = n
  | _ => False

theorem run_seed {R n : Nat} {s : Nodes} {nd : Node} (hn : s.nodes[n]? = some nd) (op : RndOp)
    (h : ¬ op.seeds n) : ∃ nd', (op.run R s).nodes[n]? = some nd' ∧ nd'.seed = nd.seed := by
  have hlt : n < s.nodes.length := by
    by_contra hc
    rw [List.getElem?_eq_none (by omega)] at hn; cases hn
  cases op with
  | new m v =>
    refine ⟨nd, ?_, rfl⟩
    show (s.nodes ++ _)[n]? = _
    rw [List.getElem?_append_left hlt]; exact hn
  | seed k v =>
    refine ⟨nd, ?_, rfl⟩
    have hk : k ≠ n := h
    show (setSeed s k v).nodes[n]? = _
    unfold setSeed
    split
    · exact hn
    · dsimp only; rw [List.getElem?_set_ne hk]; exact hn
  | mother k m =>
    show ∃ nd', (setMother s k m).nodes[n]? = some nd' ∧ _
    unfold setMother
    by_cases hk : k = n
    · subst hk
      rw [hn]
      cases m with
      | none => exact ⟨_, List.getElem?_set_self hlt, rfl⟩
      | some m => exact ⟨_, List.getElem?_set_self hlt, rfl⟩
    · refine ⟨nd, ?_, rfl⟩
      split
      · exact hn
      · cases m with
        | none => dsimp only; rw [List.getElem?_set_ne hk]; exact hn
        | some m => dsimp only; rw [List.getElem?_set_ne hk]; exact hn
  | draw k =>
    show ∃ nd', (match Verif.Core.draw R s k with
      | .ok x => x.2
      | .error _ => s).nodes[n]? = some nd' ∧ _
    unfold Verif.Core.draw
    cases hr : rngNode R s k with
    | error e => exact ⟨nd, hn, rfl⟩
    | ok r =>
      dsimp only
      cases hx : s.nodes[r]? with
      | none => exact ⟨nd, hn, rfl⟩
      | some nr =>
        dsimp only
        cases hg : nr.gen with
        | none => exact ⟨nd, hn, rfl⟩
        | some g =>
          dsimp only
          by_cases hrn : r = n
          · subst hrn
            rw [hn] at hx
            cases hx
            exact ⟨bump nd, by rw [List.getElem?_set_self hlt], rfl⟩
          · exact ⟨nd, by rw [List.getElem?_set_ne hrn]; exact hn, rfl⟩

theorem history_seed {R n : Nat} (ops : List RndOp) {s : Nodes} {nd : Node} (hn : s.nodes[n]? = some nd)
    (h : ∀ op ∈ ops, ¬ op.seeds n) :
    ∃ nd', (ops.foldl (RndOp.run R) s).nodes[n]? = some nd' ∧ nd'.seed = nd.seed := by
  induction ops generalizing s nd with
  | nil => exact ⟨nd, hn, rfl⟩
  | cons op ops ih =>
    obtain ⟨nd1, h1, h2⟩ := run_seed (R := R) hn op (h op List.mem_cons_self)
    obtain ⟨nd2, h3, h4⟩ := ih h1 (fun op' h' => h op' (List.mem_cons_of_mem _ h'))
    exact ⟨nd2, h3, h4.trans h2⟩

theorem draw_own {R n : Nat} {s : Nodes} {nd : Node} {g : Src × Nat} (hn : s.nodes[n]? = some nd)
    (hg : nd.gen = some g) : ∃ s', draw (R + 1) s n = .ok (g, s') := by
  have hr : rngNode (R + 1) s n = .ok n := by
    unfold rngNode
    rw [hn]
    dsimp only
    rw [if_pos (by rw [hg]; rfl)]
  unfold draw
  rw [hr]
  dsimp only
  rw [hn]
  dsimp only
  rw [hg]
  exact ⟨_, rfl⟩

/-- **C39** (seeds of constructors): a node constructed with seed `v` draws from the generator seeded with `v`;
and after any history in which it is not seeded again, taking its mother away makes it draw from that
generator anew, starting with the first number. -/
theorem C39_constructor_seed (R : Nat) (s : Nodes) (m : Option Nat) (v : Int) :
    (∀ ops : List RndOp, (∀ op ∈ ops, ¬ op.resets s.nodes.length) →
      ∃ s', draw (R + 1) (ops.foldl (RndOp.run (R + 1)) (newNode s m (some v))) s.nodes.length =
        .ok ((.seeded v, drawCount (R + 1) s.nodes.length (newNode s m (some v)) ops), s')) ∧
    (∀ ops : List RndOp, (∀ op ∈ ops, ¬ op.seeds s.nodes.length) →
      ∃ s', draw (R + 1) (setMother (ops.foldl (RndOp.run (R + 1)) (newNode s m (some v)))
        s.nodes.length none) s.nodes.length = .ok ((.seeded v, 0), s')) := by
  have h0 : (newNode s m (some v)).nodes[s.nodes.length]? = some ⟨m, some (.seeded v, 0), some v⟩ := by
    simp [newNode, mkGen]
  constructor
  · intro ops h
    obtain ⟨nd', h2, h3⟩ := history_keeps (R := R + 1) ops h0 rfl h
    rw [Nat.zero_add] at h3
    exact draw_own h2 h3
  · intro ops h
    obtain ⟨nd', h2, h3⟩ := history_seed (R := R + 1) ops h0 h
    have hlt : s.nodes.length < (ops.foldl (RndOp.run (R + 1)) (newNode s m (some v))).nodes.length := by
      by_contra hc
      rw [List.getElem?_eq_none (by omega)] at h2; cases h2
    have h4 : (setMother (ops.foldl (RndOp.run (R + 1)) (newNode s m (some v)))
        s.nodes.length none).nodes[s.nodes.length]? = some { nd' with
          gen := some (.seeded v, 0)
          mother := none } := by
      unfold setMother
      rw [h2]
      dsimp only
      rw [List.getElem?_set_self hlt, h3]
      rfl
    exact draw_own h4 rfl

/-- Sources of entropy in use were taken before, and by one node only. -/
def Separate (s : Nodes) : Prop :=
  (∀ (n : Nat) (nd : Node) (k i : Nat), s.nodes[n]? = some nd → nd.gen = some (.entropy k, i) → k < s.fresh) ∧
  ∀ (n m : Nat) (nd md : Node) (k i j : Nat), s.nodes[n]? = some nd → s.nodes[m]? = some md → nd.gen = some (.entropy k, i) →
    md.gen = some (.entropy k, j) → n = m

theorem separate_set {s : Nodes} (h : Separate s) (n : Nat) (nd : Node) (seed : Option Int)
    (hg : nd.gen = some (mkGen s.fresh seed).1) :
    Separate ⟨s.nodes.set n nd, (mkGen s.fresh seed).2⟩ := by
  have hf : s.fresh ≤ (mkGen s.fresh seed).2 := by cases seed <;> simp [mkGen]
  have hnew : ∀ k i, nd.gen = some (.entropy k, i) → k = s.fresh ∧ s.fresh < (mkGen s.fresh seed).2 := by
    intro k i hk
    rw [hg] at hk
    cases seed with
    | some v => simp [mkGen] at hk
    | none => simp [mkGen] at hk ⊢; exact hk.1.symm
  have get : ∀ (a : Nat) (x : Node), (s.nodes.set n nd)[a]? = some x → (a = n ∧ x = nd) ∨ (a ≠ n ∧ s.nodes[a]? = some x) := by
    intro a x hx
    by_cases han : a = n
    · subst han
      rw [List.getElem?_set_self'] at hx
      cases hs : s.nodes[a]? with
      | none => rw [hs] at hx; simp at hx
      | some y => rw [hs] at hx; simp at hx; exact .inl ⟨rfl, hx.symm⟩
    · rw [List.getElem?_set_ne (Ne.symm han)] at hx
      exact .inr ⟨han, hx⟩
  constructor
  · intro a x k i hx hk
    rcases get a x hx with ⟨rfl, rfl⟩ | ⟨_, hx'⟩
    · obtain ⟨h1, h2⟩ := hnew k i hk
      simp only
      omega
    · exact lt_of_lt_of_le (h.1 a x k i hx' hk) hf
  · intro a b x y k i j hx hy hk hk'
    rcases get a x hx with ⟨rfl, rfl⟩ | ⟨_, hx'⟩ <;> rcases get b y hy with ⟨rfl, rfl⟩ | ⟨_, hy'⟩
    · rfl
    · have := (hnew k i hk).1
      have := h.1 b y k j hy' hk'
      omega
    · have := (hnew k j hk').1
      have := h.1 a x k i hx' hk
      omega
    · exact h.2 a b x y k i j hx' hy' hk hk'

theorem separate_weaker {s : Nodes} (h : Separate s) (n : Nat) (nd nd' : Node) (hn : s.nodes[n]? = some nd)
    (hg : ∀ k i, nd'.gen = some (.entropy k, i) → ∃ j, nd.gen = some (.entropy k, j)) :
    Separate { s with nodes := s.nodes.set n nd' } := by
  have get : ∀ (a : Nat) (x : Node), (s.nodes.set n nd')[a]? = some x → ∃ y, s.nodes[a]? = some y ∧
      ∀ k i, x.gen = some (.entropy k, i) → ∃ j, y.gen = some (.entropy k, j) := by
    intro a x hx
    by_cases han : a = n
    · subst han
      rw [List.getElem?_set_self', hn] at hx
      simp at hx
      subst hx
      exact ⟨nd, hn, hg⟩
    · rw [List.getElem?_set_ne (Ne.symm han)] at hx
      exact ⟨x, hx, fun k i hk => ⟨i, hk⟩⟩
  constructor
  · intro a x k i hx hk
    obtain ⟨y, hy, hyk⟩ := get a x hx
    obtain ⟨j, hj⟩ := hyk k i hk
    exact h.1 a y k j hy hj
  · intro a b x y k i j hx hy hk hk'
    obtain ⟨x', hx', hxk⟩ := get a x hx
    obtain ⟨y', hy', hyk⟩ := get b y hy
    obtain ⟨i', hi'⟩ := hxk k i hk
    obtain ⟨j', hj'⟩ := hyk k j hk'
    exact h.2 a b x' y' k i' j' hx' hy' hi' hj'

theorem run_separate {R : Nat} {s : Nodes} (h : Separate s) (op : RndOp) : Separate (op.run R s) := by
  cases op with
  | new m v =>
    have hf : s.fresh ≤ (mkGen s.fresh v).2 := by cases v <;> simp [mkGen]
    have hnew : ∀ k i, some (mkGen s.fresh v).1 = some (.entropy k, i) →
        k = s.fresh ∧ s.fresh < (mkGen s.fresh v).2 := by
      intro k i hk
      cases v with
      | some v => simp [mkGen] at hk
      | none => simp [mkGen] at hk ⊢; exact hk.1.symm
    have get : ∀ (a : Nat) (x : Node), (newNode s m v).nodes[a]? = some x →
        (a = s.nodes.length ∧ x.gen = some (mkGen s.fresh v).1) ∨ s.nodes[a]? = some x := by
      intro a x hx
      unfold newNode at hx
      rcases Nat.lt_trichotomy a s.nodes.length with hlt | heq | hgt
      · rw [List.getElem?_append_left hlt] at hx
        exact .inr hx
      · subst heq
        simp at hx
        exact .inl ⟨rfl, by rw [← hx]⟩
      · rw [List.getElem?_eq_none (by simp; omega)] at hx
        cases hx
    have old : ∀ (a : Nat) (x : Node), s.nodes[a]? = some x → a < s.nodes.length := by
      intro a x hx
      by_contra hc
      rw [List.getElem?_eq_none (by omega)] at hx; cases hx
    show Separate (newNode s m v)
    constructor
    · intro a x k i hx hk
      rcases get a x hx with ⟨_, hg⟩ | hx'
      · obtain ⟨h1, h2⟩ := hnew k i (hg ▸ hk)
        show k < (mkGen s.fresh v).2
        omega
      · exact lt_of_lt_of_le (h.1 a x k i hx' hk) hf
    · intro a b x y k i j hx hy hk hk'
      rcases get a x hx with ⟨ha, hg⟩ | hx' <;> rcases get b y hy with ⟨hb, hg'⟩ | hy'
      · omega
      · have := (hnew k i (hg ▸ hk)).1
        have := h.1 b y k j hy' hk'
        omega
      · have := (hnew k j (hg' ▸ hk')).1
        have := h.1 a x k i hx' hk
        omega
      · exact h.2 a b x y k i j hx' hy' hk hk'
  | seed n v =>
    show Separate (setSeed s n v)
    unfold setSeed
    split
    · exact h
    · exact separate_set h n _ v rfl
  | mother n m =>
    show Separate (setMother s n m)
    unfold setMother
    split
    · exact h
    · rename_i nd hn
      cases m with
      | none => exact separate_set h n _ nd.seed rfl
      | some m => exact separate_weaker h n nd _ hn (fun k i hk => by cases hk)
  | draw k =>
    show Separate (match Verif.Core.draw R s k with
      | .ok x => x.2
      | .error _ => s)
    unfold Verif.Core.draw
    cases rngNode R s k with
    | error e => exact h
    | ok r =>
      dsimp only
      cases hx : s.nodes[r]? with
      | none => exact h
      | some nr =>
        dsimp only
        cases hg : nr.gen with
        | none => exact h
        | some g =>
          refine separate_weaker h r nr (bump nr) hx fun k i hk => ?_
          simp only [bump, hg, Option.map_some, Option.some.injEq, Prod.mk.injEq] at hk
          exact ⟨g.2, by rw [hg, ← hk.1]⟩

/-- **C39** (no shared randomness without seeds): in every reachable state, two draws by nodes using different
generators that were not seeded come from different sources of entropy. -/
theorem C39_unseeded (R : Nat) (ops : List RndOp) (n m : Nat) (nd md : Node) (k l i j : Nat) :
    let s := ops.foldl (RndOp.run R) ⟨[], 0⟩
    s.nodes[n]? = some nd → s.nodes[m]? = some md → nd.gen = some (.entropy k, i) →
      md.gen = some (.entropy l, j) → n ≠ m → k ≠ l := by
  intro s hn hm hk hl hne hkl
  have all : ∀ (ops : List RndOp) (s : Nodes), Separate s → Separate (ops.foldl (RndOp.run R) s) := by
    intro ops
    induction ops with
    | nil => exact fun _ h => h
    | cons op ops ih => exact fun s h => ih _ (run_separate h op)
  have hs : Separate s := all ops _ ⟨fun n nd k i h => by simp at h, fun n m nd md k i j h => by simp at h⟩
  subst hkl
  exact hne (hs.2 n m nd md k i j hn hm hk hl)

example : ((([RndOp.new none none, .new none none, .draw 1].foldl (RndOp.run 10) ⟨[], 0⟩).nodes).map
    (·.gen)) = [some (.entropy 0, 0), some (.entropy 1, 1)] := by rfl

/-- A scenario (0), two devices below it, one of them with a modem (3) below. -/
def tree : Nodes :=
  [RndOp.new none none, .new none none, .new none none, .new none none, .mother 1 (some 0),
    .mother 2 (some 0), .mother 3 (some 1), .seed 0 (some 42)].foldl (RndOp.run 10) ⟨[], 0⟩

example : (draw 10 ([RndOp.draw 3, .draw 2, .new none (some 7), .draw 4].foldl (RndOp.run 10) tree) 1).toOption.map
    (·.1) = some (.seeded 42, 2) := by rfl

end Verif.Core
