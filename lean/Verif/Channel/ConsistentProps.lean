import Verif.Channel.Consistent

/-!
# Spatially consistent random variables: properties (C74)
-/

namespace Verif.Consistent

open Verif.Modem (pySlice sliceBound)

/-! ### Layout -/

/-- Every variable is added to one generator at most, and offsets are not assigned by hand. -/
def Exclusive (ops : List Op) : Prop :=
  (∀ v x, Op.setOffset v x ∉ ops) ∧ ∀ g g' v, Op.add g v ∈ ops → Op.add g' v ∈ ops → g = g'

/-- The variables of a list occupy consecutive ranges from `lo` to `hi`. -/
def Layout (vars : List Var) : List Nat → Nat → Nat → Prop
  | [], lo, hi => lo = hi
  | v :: vs, lo, hi => ∃ var, vars[v]? = some var ∧ var.offset = lo ∧ Layout vars vs (lo + var.size) hi

theorem Layout.congr {vars vars' : List Var} {vs : List Nat} {lo hi : Nat}
    (h : Layout vars vs lo hi) (he : ∀ v ∈ vs, ∀ x, vars[v]? = some x → vars'[v]? = some x) :
    Layout vars' vs lo hi := by
  induction vs generalizing lo with
  | nil => exact h
  | cons v vs ih =>
    obtain ⟨var, h1, h2, h3⟩ := h
    exact ⟨var, he v (by simp) _ h1, h2, ih h3 fun w hw => he w (by simp [hw])⟩

theorem Layout.append {vars : List Var} {vs : List Nat} {lo hi v : Nat} {var : Var}
    (h : Layout vars vs lo hi) (hv : vars[v]? = some var) (ho : var.offset = hi) :
    Layout vars (vs ++ [v]) lo (hi + var.size) := by
  induction vs generalizing lo with
  | nil => obtain rfl : lo = hi := h; exact ⟨var, hv, ho, rfl⟩
  | cons w vs ih =>
    obtain ⟨x, h1, h2, h3⟩ := h
    exact ⟨x, h1, h2, ih h3⟩

theorem Layout.le {vars : List Var} {vs : List Nat} {lo hi : Nat} (h : Layout vars vs lo hi) : lo ≤ hi := by
  induction vs generalizing lo with
  | nil => exact le_of_eq h
  | cons v vs ih => obtain ⟨x, _, _, h3⟩ := h; have := ih h3; omega

theorem Layout.mem {vars : List Var} {vs : List Nat} {lo hi v : Nat} (h : Layout vars vs lo hi) (hv : v ∈ vs) :
    ∃ var, ∃ o : Nat, vars[v]? = some var ∧ var.offset = o ∧ lo ≤ o ∧ o + var.size ≤ hi := by
  induction vs generalizing lo with
  | nil => simp at hv
  | cons w vs ih =>
    obtain ⟨x, h1, h2, h3⟩ := h
    rcases List.mem_cons.mp hv with rfl | hv
    · exact ⟨x, lo, h1, h2, le_rfl, h3.le⟩
    · obtain ⟨y, o, a, b, c, d⟩ := ih h3 hv
      exact ⟨y, o, a, b, by omega, d⟩

theorem Layout.cover {vars : List Var} {vs : List Nat} {lo hi k : Nat} (h : Layout vars vs lo hi)
    (h1 : lo ≤ k) (h2 : k < hi) :
    ∃! v, v ∈ vs ∧ ∃ var, vars[v]? = some var ∧ var.offset ≤ k ∧ (k : Int) < var.offset + var.size := by
  induction vs generalizing lo with
  | nil => obtain rfl : lo = hi := h; omega
  | cons w vs ih =>
    obtain ⟨x, hx, ho, h3⟩ := h
    by_cases hk : k < lo + x.size
    · refine ⟨w, ⟨by simp, x, hx, by omega, by omega⟩, ?_⟩
      rintro v ⟨hv, y, hy, hl, hr⟩
      rcases List.mem_cons.mp hv with rfl | hv
      · rfl
      · obtain ⟨z, o, a, b, c, d⟩ := h3.mem hv
        obtain rfl : y = z := Option.some.inj (hy.symm.trans a)
        omega
    · obtain ⟨v, ⟨hv, y, hy, hl, hr⟩, hu⟩ := ih h3 (by omega)
      refine ⟨v, ⟨by simp [hv], y, hy, hl, hr⟩, ?_⟩
      rintro v' ⟨hv', y', hy', hl', hr'⟩
      rcases List.mem_cons.mp hv' with rfl | hv'
      · obtain rfl : x = y' := Option.some.inj (hx.symm.trans hy')
        omega
      · exact hu v' ⟨hv', y', hy', hl', hr'⟩

theorem Layout.total {w : World} {vs : List Nat} {lo hi : Nat} (h : Layout w.vars vs lo hi) (acc : Nat) :
    vs.foldl (fun n v => n + (((w.vars[v]?).map Var.size).getD 0)) acc + lo = acc + hi := by
  induction vs generalizing lo acc with
  | nil => obtain rfl : lo = hi := h; rfl
  | cons v vs ih =>
    obtain ⟨x, hx, _, h3⟩ := h
    have := ih h3 (acc + x.size)
    simp only [List.foldl_cons, hx, Option.map_some, Option.getD_some]
    omega

/-- What holds after every exclusive program. -/
structure Good (ops : List Op) (w : World) : Prop where
  layout : ∀ (g : Nat) (gen : Gen), w.gens[g]? = some gen → Layout w.vars gen.vars 0 gen.offset
  owner : ∀ (g : Nat) (gen : Gen), w.gens[g]? = some gen → ∀ v ∈ gen.vars, Op.add g v ∈ ops
  nodup : ∀ (g : Nat) (gen : Gen), w.gens[g]? = some gen → gen.vars.Nodup

theorem run_append (a b : List Op) : run (a ++ b) = b.foldl step (run a) := by
  simp [run, List.foldl_append]

theorem Exclusive.left {a b : List Op} (h : Exclusive (a ++ b)) : Exclusive a :=
  ⟨fun v x hm => h.1 v x (List.mem_append_left _ hm),
   fun g g' v h1 h2 => h.2 g g' v (List.mem_append_left _ h1) (List.mem_append_left _ h2)⟩

theorem good_step {ops : List Op} {w : World} {op : Op} (hg : Good ops w) (hx : Exclusive (ops ++ [op])) :
    Good (ops ++ [op]) (step w op) := by
  cases op with
  | newVar shape offset =>
    refine ⟨fun g gen h => (hg.layout g gen h).congr fun v _ x hv => ?_,
      fun g gen h v hv => List.mem_append_left _ (hg.owner g gen h v hv), hg.nodup⟩
    change (w.vars ++ _)[v]? = _
    rw [List.getElem?_append_left (List.getElem?_eq_some_iff.mp hv).1, hv]
  | newGen =>
    have key : ∀ (g : Nat) (gen : Gen), (w.gens ++ [(⟨0, []⟩ : Gen)])[g]? = some gen →
        w.gens[g]? = some gen ∨ gen = ⟨0, []⟩ := by
      intro g gen h
      by_cases hl : g < w.gens.length
      · rw [List.getElem?_append_left hl] at h; exact .inl h
      · rw [List.getElem?_append_right (by omega)] at h
        have : g - w.gens.length = 0 := by
          have := (List.getElem?_eq_some_iff.mp h).1
          simp at this; omega
        rw [this] at h
        exact .inr (Option.some.inj h).symm
    refine ⟨fun g gen h => ?_, fun g gen h v hv => ?_, fun g gen h => ?_⟩
    · rcases key g gen h with h | rfl
      · exact hg.layout g gen h
      · rfl
    · rcases key g gen h with h | rfl
      · exact List.mem_append_left _ (hg.owner g gen h v hv)
      · simp at hv
    · rcases key g gen h with h | rfl
      · exact hg.nodup g gen h
      · exact List.nodup_nil
  | setOffset v x => exact absurd (by simp) (hx.1 v x)
  | add g v =>
    change Good _ (addVariable w g v)
    have old : Good (ops ++ [Op.add g v]) w :=
      ⟨hg.layout, fun g gen h v hv => List.mem_append_left _ (hg.owner g gen h v hv), hg.nodup⟩
    unfold addVariable
    split
    · rename_i gen var hgen hvar
      split_ifs with hm
      · exact old
      · have hlv := (List.getElem?_eq_some_iff.mp hvar).1
        have hlg := (List.getElem?_eq_some_iff.mp hgen).1
        have key : ∀ (g' : Nat) (gen' : Gen),
            (w.gens.set g ⟨gen.offset + var.size, gen.vars ++ [v]⟩)[g']? = some gen' →
            (g' = g ∧ gen' = ⟨gen.offset + var.size, gen.vars ++ [v]⟩) ∨
              (g' ≠ g ∧ w.gens[g']? = some gen') := by
          intro g' gen' h
          rw [List.getElem?_set] at h
          by_cases hgg : g = g'
          · subst hgg
            rw [if_pos rfl, if_pos hlg] at h
            exact .inl ⟨rfl, (Option.some.inj h).symm⟩
          · rw [if_neg hgg] at h
            exact .inr ⟨fun e => hgg e.symm, h⟩
        have keep : ∀ vs : List Nat, v ∉ vs → ∀ u ∈ vs, ∀ x, w.vars[u]? = some x →
            (w.vars.set v { var with offset := gen.offset })[u]? = some x := by
          intro vs hv u hu x hx
          rw [List.getElem?_set_ne (fun e : v = u => hv (e ▸ hu)), hx]
        refine ⟨fun g' gen' h => ?_, fun g' gen' h u hu => ?_, fun g' gen' h => ?_⟩
        · rcases key g' gen' h with ⟨rfl, rfl⟩ | ⟨hne, h⟩
          · refine ((hg.layout g' gen hgen).congr (keep _ hm)).append (var := { var with offset := gen.offset })
              (List.getElem?_set_self hlv) rfl
          · refine (hg.layout g' gen' h).congr (keep _ fun hu => hne ?_)
            exact hx.2 _ _ v (List.mem_append_left _ (hg.owner g' gen' h v hu)) (by simp)
        · rcases key g' gen' h with ⟨rfl, rfl⟩ | ⟨hne, h⟩
          · rcases List.mem_append.mp hu with hu | hu
            · exact List.mem_append_left _ (hg.owner g' gen hgen u hu)
            · rw [List.mem_singleton.mp hu]; simp
          · exact List.mem_append_left _ (hg.owner g' gen' h u hu)
        · rcases key g' gen' h with ⟨rfl, rfl⟩ | ⟨hne, h⟩
          · exact List.nodup_append.mpr ⟨hg.nodup g' gen hgen, by simp, by
              intro a ha b hb; rw [List.mem_singleton.mp hb]; exact fun e => hm (e ▸ ha)⟩
          · exact hg.nodup g' gen' h
    · exact old

theorem good_run (ops : List Op) (hx : Exclusive ops) : Good ops (run ops) := by
  induction ops using List.reverseRecOn with
  | nil => exact ⟨by simp [run], by simp [run], by simp [run]⟩
  | append_singleton ops op ih =>
    rw [run_append]
    exact good_step (ih hx.left) hx

/-- **C74 (layout).** After every program that adds each variable to one generator at most, the variables of a
generator occupy disjoint ranges of scalars that cover exactly the scalars of its realizations: every scalar
belongs to exactly one variable, and every variable's range lies within. -/
theorem C74_layout (ops : List Op) (hx : Exclusive ops) (g : Nat) (gen : Gen)
    (hgen : (run ops).gens[g]? = some gen) :
    gen.vars.Nodup ∧
    (∀ k < numScalars (run ops) gen, ∃! v, v ∈ gen.vars ∧ ∃ var, (run ops).vars[v]? = some var ∧
      var.offset ≤ k ∧ (k : Int) < var.offset + var.shape.prod) ∧
    ∀ v ∈ gen.vars, ∃ var, (run ops).vars[v]? = some var ∧ 0 ≤ var.offset ∧
      var.offset + var.shape.prod ≤ numScalars (run ops) gen := by
  have hg := good_run ops hx
  have hl := hg.layout g gen hgen
  have ht : numScalars (run ops) gen = gen.offset := by
    have := hl.total 0
    unfold numScalars; omega
  refine ⟨hg.nodup g gen hgen, fun k hk => hl.cover (Nat.zero_le _) (by omega), fun v hv => ?_⟩
  obtain ⟨var, o, h1, h2, h3, h4⟩ := hl.mem hv
  refine ⟨var, h1, by omega, ?_⟩
  unfold Var.size at h4
  omega

/-- A program with two generators and three variables. -/
example : Exclusive [.newGen, .newGen, .newVar (some [2, 3]) 0, .newVar none 0, .newVar (some [4]) 0,
      .add 0 0, .add 1 2, .add 0 1] ∧
    run [.newGen, .newGen, .newVar (some [2, 3]) 0, .newVar none 0, .newVar (some [4]) 0,
      .add 0 0, .add 1 2, .add 0 1] =
      ⟨[⟨[2, 3], 0⟩, ⟨[1], 6⟩, ⟨[4], 0⟩], [⟨7, [0, 1]⟩, ⟨4, [2]⟩]⟩ := by
  refine ⟨⟨by simp, ?_⟩, by decide⟩
  intro g g' v h h'
  simp at h h'
  omega

/-- **C74 (shared variables), violated.** A variable added to a second generator loses its place in the first
one: there it afterwards overlaps another variable, and some scalars belong to no variable. -/
theorem C74_shared_fails :
    ∃ ops : List Op, (∀ v x, Op.setOffset v x ∉ ops) ∧
      ∃ gen, (run ops).gens[0]? = some gen ∧ gen.vars = [0, 1] ∧
        (run ops).vars[0]? = some ⟨[3], 0⟩ ∧ (run ops).vars[1]? = some ⟨[3], 0⟩ ∧
        numScalars (run ops) gen = 6 :=
  ⟨[.newGen, .newGen, .newVar (some [3]) 0, .newVar (some [3]) 0, .add 0 0, .add 0 1, .add 1 1],
    by simp, ⟨6, [0, 1]⟩, by decide, rfl, by decide, by decide, by decide⟩

/-! ### Sampling over time -/

/-- Later statements neither move the variables of a generator nor lower its offset; variables added later
start beyond it. -/
theorem later {before after : List Op} (hx : Exclusive (before ++ after)) {g : Nat} {gen : Gen}
    (hgen : (run before).gens[g]? = some gen) :
    ∃ gen', (run (before ++ after)).gens[g]? = some gen' ∧
      (∃ more, gen'.vars = gen.vars ++ more ∧
        Layout (run (before ++ after)).vars gen.vars 0 gen.offset ∧
        Layout (run (before ++ after)).vars more gen.offset gen'.offset) := by
  induction after using List.reverseRecOn with
  | nil =>
    rw [List.append_nil] at hx ⊢
    exact ⟨gen, hgen, [], by simp, (good_run before hx).layout g gen hgen, rfl⟩
  | append_singleton after op ih =>
    rw [← List.append_assoc] at hx ⊢
    obtain ⟨gen', hgen', more, hm, hl1, hl2⟩ := ih hx.left
    have hg := good_run _ hx.left
    rw [run_append]
    simp only [List.foldl_cons, List.foldl_nil]
    generalize hw : run (before ++ after) = w at *
    cases op with
    | newVar shape offset =>
      have keep : ∀ (vs : List Nat), ∀ v ∈ vs, ∀ x, w.vars[v]? = some x →
          (w.vars ++ [Var.new shape offset])[v]? = some x := fun vs v _ x hv => by
        rw [List.getElem?_append_left (List.getElem?_eq_some_iff.mp hv).1, hv]
      exact ⟨gen', hgen', more, hm, hl1.congr (keep _), hl2.congr (keep _)⟩
    | newGen =>
      refine ⟨gen', ?_, more, hm, hl1, hl2⟩
      change (w.gens ++ _)[g]? = _
      rw [List.getElem?_append_left (List.getElem?_eq_some_iff.mp hgen').1, hgen']
    | setOffset v x => exact absurd (by simp) (hx.1 v x)
    | add g' v =>
      change ∃ gen', (addVariable w g' v).gens[g]? = _ ∧ ∃ more, _ ∧ Layout (addVariable w g' v).vars _ _ _ ∧
        Layout (addVariable w g' v).vars _ _ _
      unfold addVariable
      split
      · rename_i gen2 var hgen2 hvar
        split_ifs with hmem
        · exact ⟨gen', hgen', more, hm, hl1, hl2⟩
        · have hlv := (List.getElem?_eq_some_iff.mp hvar).1
          have hlg := (List.getElem?_eq_some_iff.mp hgen2).1
          have keep : ∀ vs : List Nat, v ∉ vs → ∀ u ∈ vs, ∀ x, w.vars[u]? = some x →
              (w.vars.set v { var with offset := gen2.offset })[u]? = some x := by
            intro vs hv u hu x hx
            rw [List.getElem?_set_ne (fun e : v = u => hv (e ▸ hu)), hx]
          by_cases hgg : g' = g
          · subst hgg
            obtain rfl : gen2 = gen' := Option.some.inj (hgen2.symm.trans hgen')
            rw [hm, List.mem_append, not_or] at hmem
            refine ⟨⟨gen2.offset + var.size, gen2.vars ++ [v]⟩, List.getElem?_set_self hlg, more ++ [v],
              by rw [hm, List.append_assoc], hl1.congr (keep _ hmem.1), ?_⟩
            exact (hl2.congr (keep _ hmem.2)).append (var := { var with offset := gen2.offset })
              (List.getElem?_set_self hlv) rfl
          · have hno : v ∉ gen'.vars := fun hu => hgg
              (hx.2 _ _ v (by simp) (List.mem_append_left _ (hg.owner g gen' hgen' v hu)))
            rw [hm, List.mem_append, not_or] at hno
            exact ⟨gen', by simp only []; rw [List.getElem?_set_ne hgg, hgen'], more, hm,
              hl1.congr (keep _ hno.1), hl2.congr (keep _ hno.2)⟩
      · exact ⟨gen', hgen', more, hm, hl1, hl2⟩

theorem sample_inside {α : Type} (v : Var) (o : Nat) (xs : List α) (ho : v.offset = o)
    (h : o + v.size ≤ xs.length) : v.sample xs = .ok ((xs.drop o).take v.size) := by
  have h1 : sliceBound xs.length v.offset = o := by unfold sliceBound; rw [ho]; split_ifs <;> omega
  have h2 : sliceBound xs.length (v.offset + v.size) = o + v.size := by
    unfold sliceBound; rw [ho]; split_ifs <;> omega
  unfold Var.sample pySlice
  simp only [h1, h2, Nat.add_sub_cancel_left]
  rw [if_pos (by simp; omega)]

theorem sample_outside {α : Type} (v : Var) (o : Nat) (xs : List α) (ho : v.offset = o)
    (h : xs.length ≤ o) (hs : 0 < v.size) : v.sample xs = .error .value := by
  have h1 : sliceBound xs.length v.offset = xs.length := by unfold sliceBound; rw [ho]; split_ifs <;> omega
  unfold Var.sample pySlice
  simp only [h1, List.drop_length, List.take_nil, List.length_nil]
  rw [if_neg (by omega)]

/-- **C74 (realizations and variables).** A realization made at any point of an exclusive program can be sampled
at any later point by exactly the variables its generator had then: they read their own scalars, whatever was
added since. Variables added later (of positive size) raise a `ValueError`. -/
theorem C74_sample {α : Type} (before after : List Op) (hx : Exclusive (before ++ after)) (g : Nat) (gen gen' : Gen)
    (hgen : (run before).gens[g]? = some gen) (hgen' : (run (before ++ after)).gens[g]? = some gen')
    (scalars : List α) (hs : scalars.length = numScalars (run before) gen) (v : Nat) (hv : v ∈ gen'.vars) :
    ∃ var, (run (before ++ after)).vars[v]? = some var ∧
      (v ∈ gen.vars → ∃ old, (run before).vars[v]? = some old ∧ var = old ∧
        ∃ xs, var.sample scalars = .ok xs ∧ xs.length = var.shape.prod ∧
          ∀ i < var.shape.prod, ∃ k : Nat, (k : Int) = var.offset + i ∧ xs[i]? = scalars[k]? ∧ k < scalars.length) ∧
      (v ∉ gen.vars → 0 < var.shape.prod → var.sample scalars = .error .value) := by
  have hl0 := (good_run before hx.left).layout g gen hgen
  have ht : scalars.length = gen.offset := by
    have := hl0.total 0
    unfold numScalars at hs; omega
  obtain ⟨gen2, h2, more, hm, hl1, hl2⟩ := later hx hgen
  obtain rfl : gen2 = gen' := Option.some.inj (h2.symm.trans hgen')
  by_cases hin : v ∈ gen.vars
  · obtain ⟨var, o, h1, h2, h3, h4⟩ := hl1.mem hin
    refine ⟨var, h1, fun _ => ?_, fun h => absurd hin h⟩
    obtain ⟨old, o', h1', h2', h3', h4'⟩ := hl0.mem hin
    have hsame : var = old := by
      -- the shape never changes and the offset is determined by the predecessors
      have aux : ∀ (vs : List Nat) (lo lo2 hi hi2 : Nat) (V V2 : List Var), lo = lo2 →
          (∀ u ∈ vs, ∀ x, V[u]? = some x → ∃ y, V2[u]? = some y ∧ y.shape = x.shape) →
          Layout V vs lo hi → Layout V2 vs lo2 hi2 → ∀ u ∈ vs, V[u]? = V2[u]? := by
        intro vs
        induction vs with
        | nil => intros; simp at *
        | cons a vs ih =>
          intro lo lo2 hi hi2 V V2 hlo hsh h h' u hu
          obtain ⟨x, hx1, hx2, hx3⟩ := h
          obtain ⟨y, hy1, hy2, hy3⟩ := h'
          obtain ⟨z, hz1, hz2⟩ := hsh a (by simp) x hx1
          obtain rfl : z = y := Option.some.inj (hz1.symm.trans hy1)
          have hxy : x = z := by
            cases x; cases z; simp only at *; subst hz2; rw [hx2, hy2, hlo]
          subst hxy
          rcases List.mem_cons.mp hu with rfl | hu
          · rw [hx1, hy1]
          · exact ih _ _ _ _ V V2 (by rw [hlo]) (fun w hw => hsh w (by simp [hw])) hx3 hy3 u hu
      have hshape : ∀ (ops more : List Op) (u : Nat) (x : Var), (run ops).vars[u]? = some x →
          ∃ y, (run (ops ++ more)).vars[u]? = some y ∧ y.shape = x.shape := by
        intro ops more u x hx
        induction more using List.reverseRecOn with
        | nil => exact ⟨x, by simpa using hx, rfl⟩
        | append_singleton more op ih =>
          rw [← List.append_assoc, run_append]
          simp only [List.foldl_cons, List.foldl_nil]
          obtain ⟨y, hy, hys⟩ := ih
          generalize run (ops ++ more) = w at *
          have hlu := (List.getElem?_eq_some_iff.mp hy).1
          have upd : ∀ (t : Nat) (var : Var) (off : Int), w.vars[t]? = some var →
              ∃ y, (w.vars.set t { var with offset := off })[u]? = some y ∧ y.shape = x.shape := by
            intro t var off ht
            by_cases htu : t = u
            · subst htu
              obtain rfl : var = y := Option.some.inj (ht.symm.trans hy)
              exact ⟨_, List.getElem?_set_self hlu, hys⟩
            · exact ⟨y, by rw [List.getElem?_set_ne htu, hy], hys⟩
          cases op with
          | newVar shape offset =>
            refine ⟨y, ?_, hys⟩
            change (w.vars ++ _)[u]? = _
            rw [List.getElem?_append_left hlu, hy]
          | newGen => exact ⟨y, hy, hys⟩
          | setOffset t off =>
            unfold step
            simp only []
            split
            · exact upd _ _ _ (by assumption)
            · exact ⟨y, hy, hys⟩
          | add g t =>
            change ∃ y, (addVariable w g t).vars[u]? = _ ∧ _
            unfold addVariable
            split
            · split_ifs
              · exact ⟨y, hy, hys⟩
              · exact upd _ _ _ (by assumption)
            · exact ⟨y, hy, hys⟩
      have := aux gen.vars 0 0 gen.offset gen.offset (run before).vars (run (before ++ after)).vars rfl
        (fun u _ x hx => hshape before after u x hx) hl0 hl1 v hin
      rw [h1, h1'] at this
      exact (Option.some.inj this).symm
    refine ⟨old, h1', hsame, _, sample_inside var o scalars h2 (by omega), ?_, fun i hi => ⟨o + i, by omega, ?_, ?_⟩⟩
    · simp only [List.length_take, List.length_drop]
      unfold Var.size at *; omega
    · unfold Var.size
      rw [List.getElem?_take_of_lt hi, List.getElem?_drop]
    · unfold Var.size at h4; omega
  · have hv2 : v ∈ more := by
      rw [hm] at hv; exact (List.mem_append.mp hv).resolve_left hin
    obtain ⟨var, o, h1, h2, h3, h4⟩ := hl2.mem hv2
    exact ⟨var, h1, fun h => absurd h hin, fun _ hp => sample_outside var o scalars h2 (by omega) hp⟩

/-- A realization of one variable, sampled by it and by a later one. -/
example : (run [.newGen, .newVar (some [2]) 0, .newVar none 0, .add 0 0, .add 0 1]).vars = [⟨[2], 0⟩, ⟨[1], 2⟩] ∧
    numScalars (run [.newGen, .newVar (some [2]) 0, .newVar none 0, .add 0 0]) ⟨2, [0]⟩ = 2 ∧
    Var.sample ⟨[2], 0⟩ [7, 8] = .ok [7, 8] ∧ Var.sample ⟨[1], 2⟩ [7, 8] = .error .value := by
  refine ⟨by decide, by decide, by decide, by decide⟩

/-- **C74 (shapes).** After every program, a variable has the shape it was created with, and a single dimension of one
scalar if it was created without. -/
theorem C74_shape (before after : List Op) (shape : Option (List Nat)) (offset : Int) :
    ∃ var, (run (before ++ .newVar shape offset :: after)).vars[(run before).vars.length]? = some var ∧
      ∀ s, s ∈ shape ∨ (shape = none ∧ s = [1]) → var.shape = s := by
  have hstep : ∀ (ops : List Op) (w : World) (k : Nat) (x : Var), w.vars[k]? = some x →
      ∃ y, (ops.foldl step w).vars[k]? = some y ∧ y.shape = x.shape := by
    intro ops
    induction ops with
    | nil => exact fun w k x h => ⟨x, h, rfl⟩
    | cons op ops ih =>
      intro w k x h
      obtain ⟨y, hy, hs⟩ : ∃ y, (step w op).vars[k]? = some y ∧ y.shape = x.shape := by
        have hk : k < w.vars.length := (List.getElem?_eq_some_iff.mp h).1
        have hset : ∀ (v : Nat) (z : Var), (∀ old, w.vars[v]? = some old → z.shape = old.shape) →
            ∃ y, (w.vars.set v z)[k]? = some y ∧ y.shape = x.shape := by
          intro v z hz
          by_cases e : v = k
          · subst e
            exact ⟨z, by rw [List.getElem?_set_self hk], hz x h⟩
          · exact ⟨x, by rw [List.getElem?_set_ne e, h], rfl⟩
        cases op with
        | newVar sh o => exact ⟨x, by simp only [step]; rw [List.getElem?_append_left hk, h], rfl⟩
        | newGen => exact ⟨x, h, rfl⟩
        | add g v =>
          simp only [step, addVariable]
          split
          · split
            · exact ⟨x, h, rfl⟩
            · rename_i hv _
              exact hset v _ (fun old ho => by rw [ho] at hv; cases hv; rfl)
          · exact ⟨x, h, rfl⟩
        | setOffset v o =>
          simp only [step]
          split
          · rename_i hv
            exact hset v _ (fun old ho => by rw [ho] at hv; cases hv; rfl)
          · exact ⟨x, h, rfl⟩
      obtain ⟨z, hz, hzs⟩ := ih _ k y hy
      exact ⟨z, hz, hzs.trans hs⟩
  obtain ⟨y, hy, hs⟩ := hstep after (step (run before) (.newVar shape offset)) (run before).vars.length (Var.new shape offset)
    (by simp [step])
  refine ⟨y, ?_, fun s h => ?_⟩
  · rw [← hy]
    unfold run
    rw [List.foldl_append, List.foldl_cons]
  · rw [hs]
    rcases h with h | ⟨h, h2⟩
    · cases h; rfl
    · subst h; subst h2; rfl

example : (run ([.newGen] ++ .newVar none 3 :: [.add 0 0])).vars[(run [.newGen]).vars.length]? = some ⟨[1], 0⟩ := by decide

/-- **C74 (stored variables).** A variable read back from a file samples every realization as the original. -/
theorem C74_stored {α : Type} (v : Var) (scalars : List α) :
    (Var.deserialize v.serialize).sample scalars = v.sample scalars := by
  cases v; rfl

end Verif.Consistent
