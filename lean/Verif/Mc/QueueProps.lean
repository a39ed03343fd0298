import Verif.Mc.Queue
import Mathlib.Algebra.Order.Field.Basic

/-!
# C15, C16: scheduling and progress of the Monte Carlo queue
-/

namespace Verif.Mc

/-- **C15.** For every grid, number of samples per section, batch size and history of batch
requests and cancellations, the manager never fails, and in the trace of events
* only sections of the grid are dispatched, none more than `S` times,
* a section is never dispatched after it was cancelled,
* if the manager hands out an empty batch afterwards (which it does exactly when all sections
  are done), every section that was not cancelled has been dispatched exactly `S` times. -/
theorem C15_schedule (dims : List Nat) (S : Nat) (b : Option Nat) (ops : List Op) (hS : 1 ≤ S) :
    ∃ q tr, (Queue.init dims S b).run ops = .ok (q, tr) ∧
      (∀ c, Ev.dispatched c ∈ tr → IsSection dims c) ∧
      (∀ c, tr.count (Ev.dispatched c) ≤ S) ∧
      (∀ (i j : Nat) (c : Coord), i < j → tr[i]? = some (Ev.disabled c) → tr[j]? ≠ some (Ev.dispatched c)) ∧
      ∃ q' batch, q.nextBatch = .ok (q', batch) ∧
        (∀ c ∈ batch, IsSection dims c ∧ tr.count (Ev.dispatched c) < S ∧ Ev.disabled c ∉ tr) ∧
        batch.length ≤ (Queue.init dims S b).batchSize ∧
        (0 < (Queue.init dims S b).batchSize →
          (batch = [] ↔
            ∀ c, IsSection dims c → tr.count (Ev.dispatched c) = S ∨ Ev.disabled c ∈ tr)) := by
  obtain ⟨q, tr, h1, h2, h3, _, _⟩ := run_ok ops (Queue.init dims S b) [] (inv_init dims S b hS)
  simp only [List.nil_append] at h2
  obtain ⟨q', new, g1, g2, g3, g4, g5, _, g7⟩ := nextBatch_ok q tr h2
  refine ⟨q, tr, h1, ?_, ?_, ?_, q', new, g1, ?_, by omega, ?_⟩
  · intro c hc
    apply h2.grid
    rw [h2.cnt]
    exact List.count_pos_iff.2 hc
  · intro c; rw [← h2.cnt]; exact h2.le c
  · intro i j c hij hi hj
    have hi' := List.getElem?_eq_some_iff.1 hi
    have hj' := List.getElem?_eq_some_iff.1 hj
    obtain ⟨hi1, hi2⟩ := hi'
    obtain ⟨hj1, hj2⟩ := hj'
    exact List.pairwise_iff_getElem.1 h2.order i j hi1 hj1 hij c hi2 hj2
  · intro c hc
    have hmem : Ev.dispatched c ∈ new.map Ev.dispatched := List.mem_map_of_mem hc
    refine ⟨?_, ?_, ?_⟩
    · apply g2.grid
      rw [g2.cnt, List.count_append]
      have := List.count_pos_iff.2 hmem
      omega
    · have := g2.le c
      rw [g2.cnt, List.count_append] at this
      have := List.count_pos_iff.2 hmem
      omega
    · intro hd
      have := (List.pairwise_append.1 g2.order).2.2 _ hd _ hmem c rfl
      exact this rfl
  · intro hb
    constructor
    · intro he c hc
      have : q.active = [] := by
        by_contra hne
        have := g4 hne (by omega)
        rw [he] at this
        simp at this
      rw [← h2.cnt]
      exact h2.inact c hc (by simp [this])
    · intro hall
      apply g7
      match hq : q.active with
      | [] => rfl
      | c :: cs =>
        obtain ⟨a1, a2, a3⟩ := h2.act c (by simp [hq])
        rcases hall c a1 with h | h
        · rw [h2.cnt] at a2; omega
        · exact absurd h a3

/-- A 2x3 grid with two samples per section, batches of four, and a cancellation in between:
sections `[0,0]`..`[1,0]` first, `[0,1]` is never dispatched again after its cancellation. -/
example : ∃ q tr, (Queue.init [2, 3] 2 (some 4)).run [.next, .disable [0, 1], .next]
    = .ok (q, tr) ∧ tr.count (Ev.dispatched [0, 0]) = 2 ∧ tr.count (Ev.dispatched [0, 1]) = 1
      ∧ q.active = [[1, 1], [1, 2]] := by
  exact ⟨_, _, rfl, by decide, by decide, by decide⟩

/-- **C15, exhaustion.** Under every schedule that contains at least as many batch requests as
there are samples to collect, the queue is exhausted: further requests return empty batches. -/
theorem C15_terminates (dims : List Nat) (S : Nat) (b : Option Nat) (ops : List Op) (hS : 1 ≤ S)
    (hb : 0 < (Queue.init dims S b).batchSize) (hops : dims.prod * S ≤ numNext ops) :
    ∃ q tr, (Queue.init dims S b).run ops = .ok (q, tr) ∧ q.nextBatch = .ok (q, []) := by
  obtain ⟨q, tr, h1, h2, h3, _, h4⟩ := run_ok ops (Queue.init dims S b) [] (inv_init dims S b hS)
  refine ⟨q, tr, h1, ?_⟩
  have := h4 hb
  rw [remaining_init] at this
  have h0 : remaining S q = 0 := by omega
  have := remaining_zero h2 h0
  have hl := h2.len
  rw [this] at hl
  simp only [List.length_nil] at hl
  simp [Queue.nextBatch, hl]

example : [2].prod * 1 ≤ numNext [.next, .disable [0], .next] ∧
    0 < (Queue.init [2] 1 none).batchSize := by decide

/-! ### The default batch size visits the grid row by row -/

/-- All counters of the grid equal `k`, everything is active. -/
structure Uniform (dims : List Nat) (S k : Nat) (q : Queue) : Prop where
  dims_eq : q.dims = dims
  samples_eq : q.numSamples = S
  grid_eq : q.numGrid = dims.prod
  batch_eq : q.batchSize = dims.prod
  active_eq : q.active = ndindex dims
  num_eq : q.numActive = dims.prod
  count_eq : ∀ c, IsSection dims c → q.count c = k

theorem uniform_init (dims : List Nat) (S : Nat) :
    Uniform dims S 0 (Queue.init dims S none) := by
  refine ⟨rfl, rfl, ?_, ?_, rfl, ?_, fun _ _ => rfl⟩ <;>
    · unfold Queue.init; dsimp; split <;> simp_all

/-- Loop lemma away from the last round: from position `t` on, the rest of the grid is visited. -/
theorem loop_round (S k : Nat) (L : List Coord) (hL : L.Nodup) (hk : k + 1 < S) (n t : Nat)
    (q : Queue) (b : List Coord) (hn : n + t = L.length) (hs : q.numSamples = S)
    (ha : q.active = L) (hna : q.numActive = L.length)
    (hdone : ∀ i (h : i < L.length), q.count L[i] = if i < t then k + 1 else k) :
    ∃ q', Queue.batchLoop n t 0 q b = .ok (q', b ++ L.drop t) ∧ q'.dims = q.dims ∧
      q'.numSamples = S ∧ q'.numGrid = q.numGrid ∧ q'.batchSize = q.batchSize ∧ q'.active = L ∧
      q'.numActive = L.length ∧ (∀ c ∈ L, q'.count c = k + 1) := by
  induction n generalizing t q b with
  | zero =>
    refine ⟨q, ?_, rfl, hs, rfl, rfl, ha, hna, ?_⟩
    · simp [Queue.batchLoop, show t = L.length by omega]
    · intro c hc
      obtain ⟨i, hi, rfl⟩ := List.getElem_of_mem hc
      rw [hdone i hi, if_pos (by omega)]
  | succ n ih =>
    have ht : t < L.length := by omega
    have hget : q.active[(((t : Int) - ((0 : Nat) : Int)) % (q.numActive : Int)).toNat]?
        = some L[t] := by
      rw [ha, hna]
      have : (((t : Int) - ((0 : Nat) : Int)) % (L.length : Int)).toNat = t := by
        rw [Int.emod_eq_of_lt (by omega) (by omega)]; omega
      rw [this, List.getElem?_eq_getElem ht]
    have hmem : L[t] ∈ q.active := by rw [ha]; exact List.getElem_mem ht
    have hck : q.count L[t] = k := by rw [hdone t ht, if_neg (by omega)]
    rw [batchLoop_succ n t 0 q b _ hget, if_neg (by rw [hck, hs]; omega)]
    have hbump : bump q L[t] = { q with count := setAt q.count L[t] (q.count L[t] + 1) } := by
      unfold bump; dsimp only; rw [if_neg (by rw [hck, hs]; omega)]
    rw [hbump]
    obtain ⟨q', h1, h2, h3, h4, h5, h6, h7, h8⟩ := ih (t + 1)
      { q with count := setAt q.count L[t] (q.count L[t] + 1) } (b ++ [L[t]]) (by omega) hs ha hna
      (by
        intro i hi
        dsimp only [setAt]
        by_cases hit : i = t
        · subst hit; simp [hck]
        · have : L[i] ≠ L[t] := fun he => hit ((List.Nodup.getElem_inj_iff hL).1 he)
          rw [if_neg this, hdone i hi]
          by_cases h : i < t
          · rw [if_pos h, if_pos (by omega)]
          · rw [if_neg h, if_neg (by omega)])
    refine ⟨q', ?_, h2, h3, h4, h5, h6, h7, h8⟩
    rw [h1, List.append_assoc, List.singleton_append, List.cons_getElem_drop_succ]

/-- Loop lemma for the last round: each visited section is cancelled on the spot. -/
theorem loop_last (S : Nat) (L : List Coord) (hL : L.Nodup) (hne : L ≠ []) (t : Nat)
    (q : Queue) (b : List Coord) (hs : q.numSamples = S) (ha : q.active = L)
    (hna : q.numActive = L.length) (hcnt : ∀ c ∈ L, q.count c + 1 = S) :
    ∃ q', Queue.batchLoop L.length t t q b = .ok (q', b ++ L) ∧ q'.numActive = 0 := by
  induction L generalizing t q b with
  | nil => exact absurd rfl hne
  | cons a L ih =>
    have hget : q.active[(((t : Int) - (t : Int)) % (q.numActive : Int)).toNat]? = some a := by
      rw [ha]; simp
    rw [List.length_cons, batchLoop_succ L.length t t q b a hget,
      if_pos (by rw [hcnt a (by simp), hs])]
    have hbump : bump q a = { q with
        count := setAt q.count a (q.count a + 1)
        active := L
        flags := setAt q.flags a false
        numActive := L.length } := by
      unfold bump; dsimp only
      rw [if_pos (by rw [hcnt a (by simp), hs]), disable_eq_of_mem _ a (by simp [ha])]
      simp [ha, hna]
    rw [hbump]
    by_cases hL0 : L = []
    · subst hL0
      exact ⟨_, rfl, rfl⟩
    · have hpos := List.length_pos_iff.2 hL0
      rw [if_neg (by dsimp only; omega)]
      rw [List.nodup_cons] at hL
      obtain ⟨q', h1, h2⟩ := ih hL.2 hL0 (t + 1) { q with
          count := setAt q.count a (q.count a + 1)
          active := L
          flags := setAt q.flags a false
          numActive := L.length } (b ++ [a]) hs rfl rfl
        (by
          intro c hc
          have : c ≠ a := fun he => hL.1 (he ▸ hc)
          dsimp only [setAt]
          rw [if_neg this]; exact hcnt c (by simp [hc]))
      exact ⟨q', by rw [h1]; simp, h2⟩

theorem uniform_next {dims : List Nat} {S k : Nat} {q : Queue} (h : Uniform dims S k q)
    (hpos : 0 < dims.prod) (hk : k + 1 < S) :
    ∃ q', q.nextBatch = .ok (q', ndindex dims) ∧ Uniform dims S (k + 1) q' := by
  unfold Queue.nextBatch
  rw [if_neg (by rw [h.num_eq]; omega)]
  obtain ⟨q', h1, h2, h3, h4, h5, h6, h7, h8⟩ := loop_round S k (ndindex dims) (nodup_ndindex dims)
    hk q.batchSize 0 q [] (by rw [h.batch_eq, length_ndindex]; rfl) h.samples_eq h.active_eq
    (by rw [h.num_eq, length_ndindex])
    (by intro i hi; rw [if_neg (by omega)]
        exact h.count_eq _ (mem_ndindex.1 (List.getElem_mem hi)))
  exact ⟨q', by simpa using h1, h2.trans h.dims_eq, h3, h4.trans h.grid_eq, h5.trans h.batch_eq,
    h6, by rw [h7, length_ndindex], fun c hc => h8 c (mem_ndindex.2 hc)⟩

theorem uniform_last {dims : List Nat} {S k : Nat} {q : Queue} (h : Uniform dims S k q)
    (hpos : 0 < dims.prod) (hk : k + 1 = S) :
    ∃ q', q.nextBatch = .ok (q', ndindex dims) ∧ q'.numActive = 0 := by
  unfold Queue.nextBatch
  rw [if_neg (by rw [h.num_eq]; omega)]
  have hlen := length_ndindex dims
  obtain ⟨q', h1, h2⟩ := loop_last S (ndindex dims) (nodup_ndindex dims)
    (by intro he; rw [he] at hlen; simp at hlen; omega) 0 q [] h.samples_eq h.active_eq
    (by rw [h.num_eq, hlen])
    (by intro c hc; rw [h.count_eq c (mem_ndindex.1 hc)]; exact hk)
  exact ⟨q', by rw [h.batch_eq, ← hlen]; simpa using h1, h2⟩

/-- The batches returned by `n` consecutive requests. -/
def batches : Nat → Queue → Except PyErr (List (List Coord))
  | 0, _ => .ok []
  | n + 1, q =>
    match q.nextBatch with
    | .error e => .error e
    | .ok (q', b) =>
      match batches n q' with
      | .error e => .error e
      | .ok bs => .ok (b :: bs)

theorem batches_done (n : Nat) (q : Queue) (h : q.numActive = 0) :
    batches n q = .ok (List.replicate n []) := by
  induction n with
  | zero => rfl
  | succ n ih => simp [batches, Queue.nextBatch, h, ih, List.replicate_succ]

theorem batches_uniform (dims : List Nat) (S m extra : Nat) (hpos : 0 < dims.prod) :
    ∀ k q, Uniform dims S k q → k + m = S → 0 < m →
      batches (m + extra) q
        = .ok (List.replicate m (ndindex dims) ++ List.replicate extra []) := by
  induction m with
  | zero => intro k q _ _ h; omega
  | succ m ih =>
    intro k q hu hk _
    by_cases hm : m = 0
    · subst hm
      obtain ⟨q', h1, h2⟩ := uniform_last hu hpos (by omega)
      rw [show 0 + 1 + extra = extra + 1 by omega]
      simp [batches, h1, batches_done _ _ h2]
    · obtain ⟨q', h1, h2⟩ := uniform_next hu hpos (by omega)
      rw [show m + 1 + extra = (m + extra) + 1 by omega]
      simp only [batches, h1, ih (k + 1) q' h2 (by omega) (by omega)]
      simp [List.replicate_succ]

/-- **C15, default schedule.** Without early stopping and with the default batch size used by
`MonteCarlo.simulate`, each of the first `S` batches is exactly the whole grid in row-major
order and every later batch is empty. -/
theorem C15_default_batches (dims : List Nat) (S extra : Nat) (hS : 1 ≤ S) (hd : 0 < dims.prod) :
    batches (S + extra) (Queue.init dims S none)
      = .ok (List.replicate S (ndindex dims) ++ List.replicate extra []) :=
  batches_uniform dims S S extra hd 0 _ (uniform_init dims S) (by omega) hS

example : 0 < [2, 3].prod ∧ ndindex [2, 3] = [[0, 0], [0, 1], [0, 2], [1, 0], [1, 1], [1, 2]] := by
  decide

/-! ## C16: progress -/

/-- The truthful progress: sections still active count with their dispatched samples, finished
or cancelled sections count fully. -/
def trueProgress (dims : List Nat) (S : Nat) (isActive : Coord → Prop) [DecidablePred isActive]
    (dispatched : Coord → Nat) : ℚ :=
  ((((ndindex dims).map fun c => if isActive c then dispatched c else S).sum : Nat) : ℚ)
    / (dims.prod * S : Nat)

theorem sum_split_active (S : Nat) (G A : List Coord) (f : Coord → Nat) (hG : G.Nodup)
    (hA : A.Nodup) (hsub : ∀ a ∈ A, a ∈ G) :
    (G.map fun c => if c ∈ A then f c else S).sum + A.length * S
      = G.length * S + (A.map f).sum := by
  induction A generalizing G with
  | nil => simp
  | cons a A ih =>
    rw [List.nodup_cons] at hA
    have haG : a ∈ G := hsub a (by simp)
    have hp := List.perm_cons_erase haG
    have hsum := (hp.map (fun c => if c ∈ a :: A then f c else S)).sum_eq
    have hsum2 := (hp.map (fun c => if c ∈ A then f c else S)).sum_eq
    have hcongr : ((G.erase a).map fun c => if c ∈ a :: A then f c else S)
        = (G.erase a).map fun c => if c ∈ A then f c else S := by
      apply List.map_congr_left
      intro c hc
      have hca : c ≠ a := (hG.mem_erase_iff.1 hc).1
      simp [hca]
    have := ih G hG hA.2 (fun x hx => hsub x (by simp [hx]))
    simp only [List.map_cons, List.sum_cons] at hsum hsum2
    rw [hcongr] at hsum
    rw [if_pos (by simp)] at hsum
    rw [if_neg hA.1] at hsum2
    simp only [List.length_cons, List.map_cons, List.sum_cons, Nat.add_mul, Nat.one_mul]
    omega

theorem sum_flatten_single (A : List Coord) (g : Nat → Nat) (f : Coord → Nat)
    (h : ∀ c ∈ A, ∃ v, c = [v] ∧ g v = f c) : (A.flatten.map g).sum = (A.map f).sum := by
  induction A with
  | nil => rfl
  | cons a A ih =>
    obtain ⟨v, hv, hg⟩ := h a (by simp)
    have := ih (fun c hc => h c (by simp [hc]))
    subst hv
    simp only [List.flatten_cons, List.map_append, List.sum_append, List.map_cons, List.map_nil,
      List.sum_cons, List.sum_nil, this, hg, Nat.add_zero]

theorem sum_count_lt (S : Nat) (f : Coord → Nat) (A : List Coord) (h : ∀ c ∈ A, f c < S) :
    (A.map f).sum + A.length ≤ A.length * S := by
  induction A with
  | nil => simp
  | cons a A ih =>
    have := ih (fun c hc => h c (by simp [hc]))
    have := h a (by simp)
    simp only [List.map_cons, List.sum_cons, List.length_cons, Nat.add_mul, Nat.one_mul]
    omega

theorem sum_remaining (S : Nat) (f : Coord → Nat) (A : List Coord) (h : ∀ c ∈ A, f c < S) :
    (A.map f).sum + (A.map fun c => S - f c).sum = A.length * S := by
  induction A with
  | nil => simp
  | cons a A ih =>
    have := ih (fun c hc => h c (by simp [hc]))
    have := h a (by simp)
    simp only [List.map_cons, List.sum_cons, List.length_cons, Nat.add_mul, Nat.one_mul]
    omega

/-- The truthful progress in terms of the outstanding work. -/
theorem trueProgress_eq {dims : List Nat} {S : Nat} {q : Queue} {tr : List Ev}
    (h : Inv dims S q tr) :
    ((ndindex dims).map fun c => if q.flags c = true then tr.count (Ev.dispatched c) else S).sum
      + remaining S q = dims.prod * S := by
  have hflag : ((ndindex dims).map fun c => if q.flags c = true then tr.count (Ev.dispatched c)
      else S) = (ndindex dims).map fun c => if c ∈ q.active then q.count c else S := by
    apply List.map_congr_left
    intro c hc
    have := h.flag c (mem_ndindex.1 hc)
    simp only [this, h.cnt]
  have hsplit := sum_split_active S (ndindex dims) q.active q.count (nodup_ndindex _) h.nodup
    (fun a ha => mem_ndindex.2 (h.act a ha).1)
  have hr := sum_remaining S q.count q.active (fun c hc => (h.act c hc).2.1)
  rw [length_ndindex] at hsplit
  rw [hflag]
  unfold remaining
  omega

theorem remaining_eq_zero_iff {dims : List Nat} {S : Nat} {q : Queue} {tr : List Ev}
    (h : Inv dims S q tr) : remaining S q = 0 ↔
      ∀ c, IsSection dims c → tr.count (Ev.dispatched c) = S ∨ Ev.disabled c ∈ tr := by
  constructor
  · intro h0 c hc
    rw [← h.cnt]
    exact h.inact c hc (by simp [remaining_zero h h0])
  · intro hall
    have : q.active = [] := by
      match hq : q.active with
      | [] => rfl
      | c :: cs =>
        obtain ⟨a1, a2, a3⟩ := h.act c (by simp [hq])
        rcases hall c a1 with h' | h'
        · rw [h.cnt] at a2; omega
        · exact absurd h' a3
    simp [remaining, this]

/-- `query_progress` on a one-dimensional grid. -/
theorem progress_one_dim {n S : Nat} {q : Queue} {tr : List Ev} (hS : 1 ≤ S) (hn : 1 ≤ n)
    (h : Inv [n] S q tr) :
    q.progress = .ok (trueProgress [n] S (fun c => q.flags c = true)
        (fun c => tr.count (Ev.dispatched c))) := by
  have htrue := trueProgress_eq h
  have hr := sum_remaining S q.count q.active (fun c hc => (h.act c hc).2.1)
  have hsingle : ∀ c ∈ q.active, ∃ v, c = [v] ∧ v < n := by
    intro c hc
    have := (h.act c hc).1
    unfold IsSection at this
    cases this with
    | cons hv hr => cases hr; exact ⟨_, rfl, hv⟩
  have hden : (0 : ℚ) < (([n].prod * S : Nat) : ℚ) := by
    have : 0 < [n].prod * S := by simp; omega
    exact_mod_cast this
  unfold trueProgress Queue.progress
  split
  · rename_i h0
    have hl := h.len
    have : q.active = [] := List.length_eq_zero_iff.1 (by omega)
    have h0 : remaining S q = 0 := by simp [remaining, this]
    rw [h0, Nat.add_zero] at htrue
    rw [htrue, div_self (ne_of_gt hden)]
  · rename_i h0
    have hany : (q.active.flatten.any fun v => decide (q.dims.headD 1 ≤ v)) = false := by
      rw [List.any_eq_false]
      intro v hv
      obtain ⟨c, hc, hvc⟩ := List.mem_flatten.1 hv
      obtain ⟨w, rfl, hw⟩ := hsingle c hc
      simp at hvc
      simp [h.dims_eq, hvc, hw]
    dsimp only
    rw [hany]
    have htail : ndindex q.dims.tail = [[]] := by rw [h.dims_eq]; rfl
    rw [htail]
    have hs : (q.active.flatten.map fun v =>
        (([[]] : List Coord).map fun r => q.count (v :: r)).sum).sum
        = (q.active.map q.count).sum := by
      apply sum_flatten_single
      intro c hc
      obtain ⟨v, rfl, _⟩ := hsingle c hc
      exact ⟨v, rfl, by simp⟩
    rw [hs, h.samples_eq, h.grid_eq, h.len, if_neg (by decide)]
    have hq : ((([n].prod * S + (q.active.map q.count).sum : Nat)) : ℚ)
        = ((((ndindex [n]).map fun c => if q.flags c = true then tr.count (Ev.dispatched c)
              else S).sum + q.active.length * S : Nat) : ℚ) := by
      have : [n].prod * S + (q.active.map q.count).sum
        = ((ndindex [n]).map fun c => if q.flags c = true then tr.count (Ev.dispatched c)
              else S).sum + q.active.length * S := by
        unfold remaining at htrue
        omega
      exact_mod_cast this
    push_cast at hq ⊢
    congr 2
    linarith

/-- **C16 for one-dimensional grids.** For every number `n` of sample points, every number of
samples, batch size and history, `query_progress` succeeds and returns the truthful progress,
which lies in `[0, 1]` and is `1` exactly when every section is finished or cancelled. -/
theorem C16_one_dimension_partial (n S : Nat) (b : Option Nat) (ops : List Op) (hS : 1 ≤ S)
    (hn : 1 ≤ n) :
    ∃ q tr p, (Queue.init [n] S b).run ops = .ok (q, tr) ∧ q.progress = .ok p ∧
      p = trueProgress [n] S (fun c => q.flags c = true)
        (fun c => tr.count (Ev.dispatched c)) ∧ 0 ≤ p ∧ p ≤ 1 ∧
      (p = 1 ↔ ∀ c, IsSection [n] c → tr.count (Ev.dispatched c) = S ∨ Ev.disabled c ∈ tr) := by
  obtain ⟨q, tr, h1, h2, _, _, _⟩ := run_ok ops (Queue.init [n] S b) [] (inv_init [n] S b hS)
  simp only [List.nil_append] at h2
  refine ⟨q, tr, _, h1, progress_one_dim hS hn h2, rfl, ?_, ?_, ?_⟩
  all_goals
    have htrue := trueProgress_eq h2
    have hden : (0 : ℚ) < (([n].prod * S : Nat) : ℚ) := by
      have : 0 < [n].prod * S := by simp; omega
      exact_mod_cast this
    unfold trueProgress
    beta_reduce
  · exact div_nonneg (Nat.cast_nonneg _) hden.le
  · rw [div_le_one hden]
    exact_mod_cast (by omega : _ ≤ [n].prod * S)
  · rw [div_eq_one_iff_eq (ne_of_gt hden), ← remaining_eq_zero_iff h2, Nat.cast_inj]
    omega

/-- **C16, monotonicity for one-dimensional grids.** Progress never decreases. -/
theorem C16_one_dimension_monotone_partial (n S : Nat) (b : Option Nat) (ops more : List Op)
    (hS : 1 ≤ S) (hn : 1 ≤ n) :
    ∃ q tr q' tr' p p', (Queue.init [n] S b).run ops = .ok (q, tr) ∧ q.run more = .ok (q', tr') ∧
      q.progress = .ok p ∧ q'.progress = .ok p' ∧ p ≤ p' := by
  obtain ⟨q, tr, h1, h2, _, _, _⟩ := run_ok ops (Queue.init [n] S b) [] (inv_init [n] S b hS)
  simp only [List.nil_append] at h2
  obtain ⟨q', tr', g1, g2, _, g3, _⟩ := run_ok more q tr h2
  refine ⟨q, tr, q', tr', _, _, h1, g1, progress_one_dim hS hn h2, progress_one_dim hS hn g2, ?_⟩
  have hden : (0 : ℚ) < (([n].prod * S : Nat) : ℚ) := by
    have : 0 < [n].prod * S := by simp; omega
    exact_mod_cast this
  unfold trueProgress
  beta_reduce
  rw [div_le_div_iff_of_pos_right hden, Nat.cast_le]
  have a := trueProgress_eq h2
  have b := trueProgress_eq g2
  omega

/-- Three of six samples dispatched: progress one half. -/
example : ∃ q tr, (Queue.init [3] 2 none).run [.next] = .ok (q, tr) ∧
    q.progress = .ok (1 / 2) := by
  refine ⟨_, _, rfl, ?_⟩
  rw [show (1 / 2 : ℚ) = ((3 : ℚ) - 3) * 2 / 6 + 3 / 6 by norm_num]
  unfold Queue.progress
  simp [Queue.init, ndindex, setAt, List.range_succ]
  norm_num

/-- **C16 fails on rectangular grids.** For every two-dimensional grid whose second dimension has
more sample points than its first, `query_progress` raises `IndexError`. -/
theorem C16_rectangular_grid_fails (d₀ d₁ S : Nat) (b : Option Nat) (h0 : 1 ≤ d₀)
    (h1 : d₀ < d₁) : (Queue.init [d₀, d₁] S b).progress = .error .index := by
  unfold Queue.progress
  have hpos : 1 ≤ d₀ * d₁ := Nat.mul_pos h0 (by omega)
  have hna : (Queue.init [d₀, d₁] S b).numActive = d₀ * d₁ := by simp [Queue.init]
  rw [if_neg (by omega)]
  have hmem : [0, d₀] ∈ ndindex [d₀, d₁] := by
    rw [mem_ndindex]
    exact List.Forall₂.cons h0 (List.Forall₂.cons h1 List.Forall₂.nil)
  have hany : ((Queue.init [d₀, d₁] S b).active.flatten.any fun v =>
      decide ((Queue.init [d₀, d₁] S b).dims.headD 1 ≤ v)) = true := by
    rw [List.any_eq_true]
    refine ⟨d₀, List.mem_flatten.2 ⟨_, hmem, by simp⟩, by simp [Queue.init]⟩
  dsimp only
  rw [if_pos hany]

theorem uniform_run {dims : List Nat} {S : Nat} (hpos : 0 < dims.prod) (m k : Nat) (q : Queue)
    (h : Uniform dims S k q) (hk : k + m < S) :
    ∃ q' tr, q.run (List.replicate m .next) = .ok (q', tr) ∧ Uniform dims S (k + m) q' := by
  induction m generalizing k q with
  | zero => exact ⟨q, [], rfl, h⟩
  | succ m ih =>
    obtain ⟨q1, h1, h2⟩ := uniform_next h hpos (by omega)
    obtain ⟨q2, tr, g1, g2⟩ := ih (k + 1) q1 h2 (by omega)
    refine ⟨q2, (ndindex dims).map Ev.dispatched ++ tr, ?_, by
      rw [show k + (m + 1) = k + 1 + m by omega]; exact g2⟩
    simp [List.replicate_succ, Queue.run, Queue.step, h1, Except.map, g1]

theorem sum_map_const_mem {α : Type} (L : List α) (f : α → Nat) (k : Nat) (h : ∀ x ∈ L, f x = k) :
    (L.map f).sum = L.length * k := by
  induction L with
  | nil => simp
  | cons a L ih =>
    simp only [List.map_cons, List.sum_cons, List.length_cons, Nat.add_mul, Nat.one_mul]
    rw [ih (fun x hx => h x (by simp [hx])), h a (by simp)]
    omega

/-- **C16 fails on square grids.** On an `n` by `n` grid, after `k < S` full rounds (each section
dispatched `k` times, all still active) the reported progress is `2·n·k/S` instead of `k/S`.
`MonteCarlo.simulate` stops as soon as progress reaches one. -/
theorem C16_square_grid_fails (n S k : Nat) (hn : 1 ≤ n) (hk : k < S) :
    ∃ q tr, (Queue.init [n, n] S none).run (List.replicate k .next) = .ok (q, tr) ∧
      (∀ c, IsSection [n, n] c → tr.count (Ev.dispatched c) = k ∧ q.flags c = true) ∧
      q.progress = .ok (2 * n * k / S) := by
  have hpos : 0 < [n, n].prod := by simp; omega
  obtain ⟨q, tr, h1, h2⟩ := uniform_run hpos k 0 _ (uniform_init [n, n] S) (by omega)
  obtain ⟨q', tr', g1, g2, _, _, _⟩ := run_ok (List.replicate k .next) (Queue.init [n, n] S none) []
    (inv_init [n, n] S none (by omega))
  rw [h1] at g1
  injection g1 with g1
  injection g1 with ga gb
  subst ga gb
  simp only [List.nil_append] at g2
  rw [Nat.zero_add] at h2
  refine ⟨q, tr, h1, ?_, ?_⟩
  · intro c hc
    refine ⟨by rw [← g2.cnt]; exact h2.count_eq c hc, ?_⟩
    rw [g2.flag c hc, h2.active_eq]
    exact mem_ndindex.2 hc
  · have hent : ∀ c ∈ ndindex [n, n], c.length = 2 ∧ ∀ v ∈ c, v < n := by
      intro c hc
      have := mem_ndindex.1 hc
      unfold IsSection at this
      cases this with
      | cons ha hr =>
        cases hr with
        | cons hb hr => cases hr; exact ⟨rfl, by simp; omega⟩
    have hlen : (ndindex [n, n]).flatten.length = (ndindex [n, n]).length * 2 :=
      Np.length_flatten_uniform 2 _ (fun c hc => (hent c hc).1)
    have hv : ∀ v ∈ (ndindex [n, n]).flatten, v < n := by
      intro v hv
      obtain ⟨c, hc, hvc⟩ := List.mem_flatten.1 hv
      exact (hent c hc).2 v hvc
    have hrow : ∀ v ∈ (ndindex [n, n]).flatten,
        ((ndindex [n]).map fun r => q.count (v :: r)).sum = n * k := by
      intro v hvm
      rw [sum_map_const_mem (ndindex [n]) (fun r => q.count (v :: r)) k, length_ndindex]
      · simp
      · intro r hr
        exact h2.count_eq _ (List.Forall₂.cons (hv v hvm) (mem_ndindex.1 hr))
    unfold Queue.progress
    rw [if_neg (by rw [h2.num_eq]; omega), h2.active_eq, h2.dims_eq]
    have hany : ((ndindex [n, n]).flatten.any fun v => decide ([n, n].headD 1 ≤ v)) = false := by
      rw [List.any_eq_false]
      intro v hvm
      have := hv v hvm
      simpa using this
    dsimp only [List.tail_cons]
    rw [hany, sum_map_const_mem _ _ (n * k) hrow, hlen, length_ndindex, h2.grid_eq, h2.num_eq,
      h2.samples_eq, if_neg (by decide)]
    have hn0 : (n : ℚ) ≠ 0 := by
      have : n ≠ 0 := by omega
      exact_mod_cast this
    have hS0 : (S : ℚ) ≠ 0 := by
      have : S ≠ 0 := by omega
      exact_mod_cast this
    simp only [List.prod_cons, List.prod_nil]
    push_cast
    congr 1
    field_simp
    ring

/-- On a 4 by 4 grid with 100 samples per section, progress one is reported after 13 rounds. -/
example : (1 : ℚ) ≤ 2 * (4 : Nat) * (13 : Nat) / (100 : Nat) := by norm_num

end Verif.Mc
