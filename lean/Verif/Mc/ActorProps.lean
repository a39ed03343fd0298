import Verif.Mc.Actor

/-!
# C17: re-use of stage results is transparent; C44, C45: stage arguments
-/

namespace Verif.Mc

variable {Out Art : Type}

theorem partRun_zero (f : Nat → (Nat → Nat) → (Nat → Out) → Out) (cfg : Nat → Nat)
    (n : Nat) (o : Nat → Out) : partRun f cfg n 0 o = fullRun f cfg o n := by
  induction n with
  | zero => rfl
  | succ n ih =>
    rw [partRun_split f cfg n 1 0 o, ih]
    simp [partRun, fullRun]

theorem lastImpact_lt (ids : List String) (L : List GDim) :
    lastImpact ids L + 1 ≤ (ids.length : Int) := by
  have key : ∀ (L : List GDim) (acc : Int), (acc ≤ 0 ∨ acc + 1 ≤ (ids.length : Int)) →
      (L.foldl (fun (acc : Int) g => match g.last with
      | none => (ids.length : Int) - 1
      | some s => if s ∈ ids then max acc (ids.idxOf s : Int) else acc) acc ≤ 0 ∨
      L.foldl (fun (acc : Int) g => match g.last with
      | none => (ids.length : Int) - 1
      | some s => if s ∈ ids then max acc (ids.idxOf s : Int) else acc) acc + 1
        ≤ (ids.length : Int)) := by
    intro L
    induction L with
    | nil => intro acc h; exact h
    | cons a L ih =>
      intro acc h
      rw [List.foldl_cons]
      apply ih
      cases a.last with
      | none => right; dsimp only; omega
      | some s =>
        dsimp only
        split
        · rename_i hm
          have := List.idxOf_lt_length_of_mem hm
          omega
        · exact h
  have := key L 0 (Or.inl le_rfl)
  unfold lastImpact
  dsimp only
  split
  · omega
  · rename_i hn
    rcases this with h | h
    · exact absurd h hn
    · exact h

theorem foldl_changed_section (c : Nat → Nat) (s r : Coord) (hl : s.length = r.length) :
    (changedFrom 0 s r).foldl (fun c p => upd c p.1 p.2) (sectionConfig c r)
      = sectionConfig c s := by
  rw [foldl_changedFrom s r hl 0 (sectionConfig c r)]
  · funext j
    simp only [Nat.zero_le, if_true, Nat.sub_zero, sectionConfig]
    cases hs : s[j]? with
    | some v => rfl
    | none =>
      have : r[j]? = none := by
        rw [List.getElem?_eq_none_iff] at hs ⊢
        omega
      simp [this]
  · intro j v hv
    simp [sectionConfig, hv]

/-- One section: from a state valid for section `r` (or a fresh state when nothing changed) to
the full run of section `s`. -/
theorem runSection_pipe (ids : List String) (grid : List GDim)
    (f : Nat → (Nat → Nat) → (Nat → Out) → Out) (ev : PipeState Out → Art)
    (direct reads : Nat → Nat → Prop) (hf : RespectsDeps f direct reads)
    (hdecl : ∀ d g k, grid[d]? = some g → k < ids.length → Influences direct reads d k →
      Covers ids g k)
    (c : Nat → Nat) (base o : Nat → Out) (s r : Coord)
    (hs : IsSection (grid.map GDim.numPoints) s) (hr : IsSection (grid.map GDim.numPoints) r)
    (ho : o = fullRun f (sectionConfig c r) base ids.length ∨ (o = base ∧ s = r)) :
    (pipeActor ids grid f ev).runSection r s ⟨sectionConfig c r, o⟩
      = .ok (⟨sectionConfig c s, fullRun f (sectionConfig c s) base ids.length⟩,
          [⟨s, 0, ev ⟨sectionConfig c s, fullRun f (sectionConfig c s) base ids.length⟩⟩]) := by
  have hlen : s.length = r.length := by
    rw [hs.length_eq, hr.length_eq]
  have hchg : ∀ p ∈ changedFrom 0 s r, ∃ g, grid[p.1]? = some g ∧ p.2 < g.numPoints := by
    intro p hp
    obtain ⟨j, h1, h2, _⟩ := mem_changedFrom s r 0 p hp
    have hj : j < s.length := by
      rw [List.getElem?_eq_some_iff] at h2
      exact h2.1
    have hjg : j < grid.length := by
      have := hs.length_eq
      simp at this
      omega
    refine ⟨grid[j], by rw [h1, Nat.zero_add, List.getElem?_eq_getElem hjg], ?_⟩
    have := List.forall₂_iff_get.1 hs
    have := this.2 j hj (by simpa using hjg)
    simp only [List.get_eq_getElem, List.getElem_map] at this
    rw [List.getElem?_eq_getElem hj] at h2
    injection h2 with h2
    omega
  unfold Actor.runSection
  dsimp only
  rw [configureAll_pipe ids grid f ev _ hchg]
  dsimp only
  rw [foldl_changed_section c s r hlen, executeStages_pipe]
  have houts : partRun f (sectionConfig c s)
      ((lastImpact ids ((changedFrom 0 s r).filterMap fun p => grid[p.1]?)) + 1
        - (firstImpact ids ((changedFrom 0 s r).filterMap fun p => grid[p.1]?) : Nat)).toNat
      (firstImpact ids ((changedFrom 0 s r).filterMap fun p => grid[p.1]?)) o
      = fullRun f (sectionConfig c s) base ids.length := by
    rcases ho with ho | ⟨ho, hsr⟩
    · funext k
      by_cases hk : k < ids.length
      · refine partRun_refresh hf ids.length _ _ (sectionConfig c r) (sectionConfig c s) base o
          (fun k _ => by rw [ho]) ?_ k hk
        intro d k hk hne hinf
        have hdiff : ∃ v, s[d]? = some v ∧ s[d]? ≠ r[d]? := by
          simp only [sectionConfig] at hne
          cases hsd : s[d]? with
          | none =>
            have : r[d]? = none := by
              rw [List.getElem?_eq_none_iff] at hsd ⊢; omega
            rw [hsd, this] at hne
            exact absurd rfl hne
          | some v =>
            refine ⟨v, rfl, ?_⟩
            intro he
            rw [hsd, ← he] at hne
            exact hne rfl
        obtain ⟨v, hv, hvr⟩ := hdiff
        have hmem := changedFrom_complete s r hlen 0 d v hv hvr
        rw [Nat.zero_add] at hmem
        obtain ⟨g, hg, _⟩ := hchg _ hmem
        have hgm : g ∈ (changedFrom 0 s r).filterMap fun p => grid[p.1]? :=
          List.mem_filterMap.2 ⟨_, hmem, hg⟩
        have hcov := hdecl d g k hg hk hinf
        have h1 := firstImpact_le ids _ g k hgm hcov.1
        have h2 := lastImpact_ge ids _ g k hk hgm hcov.2
        refine ⟨h1, ?_⟩
        omega
      · rw [partRun_outside f _ _ _ k o, ho, fullRun_ge _ _ _ _ k (by omega),
          fullRun_ge _ _ _ _ k (by omega)]
        right
        have := lastImpact_lt ids ((changedFrom 0 s r).filterMap fun p => grid[p.1]?)
        have hfst : firstImpact ids ((changedFrom 0 s r).filterMap fun p => grid[p.1]?)
            ≤ ids.length := by
          unfold firstImpact; dsimp only; split <;> omega
        omega
    · subst hsr
      have hnil : changedFrom 0 s s = [] := by
        rw [List.eq_nil_iff_forall_not_mem]
        intro p hp
        obtain ⟨j, _, _, h⟩ := mem_changedFrom s s 0 p hp
        exact h rfl
      rw [hnil]
      simp only [List.filterMap_nil]
      rw [(impact_nil ids).1, (impact_nil ids).2]
      have : ((ids.length : Int) - 1 + 1 - ((0 : Nat) : Int)).toNat = ids.length := by omega
      rw [this, partRun_zero, ho]
  simp only [pipeActor] at houts ⊢
  rw [houts]
  simp

theorem runSections_pipe (ids : List String) (grid : List GDim)
    (f : Nat → (Nat → Nat) → (Nat → Out) → Out) (ev : PipeState Out → Art)
    (direct reads : Nat → Nat → Prop) (hf : RespectsDeps f direct reads)
    (hdecl : ∀ d g k, grid[d]? = some g → k < ids.length → Influences direct reads d k →
      Covers ids g k)
    (c : Nat → Nat) (base : Nat → Out) (ss : List Coord) :
    ∀ (r : Coord) (o : Nat → Out), (∀ s ∈ ss, IsSection (grid.map GDim.numPoints) s) →
    IsSection (grid.map GDim.numPoints) r →
    (o = fullRun f (sectionConfig c r) base ids.length ∨ (o = base ∧ ∀ s ∈ ss.head?, s = r)) →
    ∃ x', (pipeActor ids grid f ev).runSections r ss ⟨sectionConfig c r, o⟩
      = .ok (x', ss.map fun s =>
          ⟨s, 0, ev ⟨sectionConfig c s, fullRun f (sectionConfig c s) base ids.length⟩⟩) := by
  induction ss with
  | nil => intro r o _ _ _; exact ⟨_, rfl⟩
  | cons s ss ih =>
    intro r o hss hr ho
    rw [Actor.runSections, runSection_pipe ids grid f ev direct reads hf hdecl c base o s r
      (hss s (by simp)) hr (by
        rcases ho with h | ⟨h1, h2⟩
        · exact Or.inl h
        · exact Or.inr ⟨h1, h2 s (by simp)⟩)]
    dsimp only
    obtain ⟨x', hx'⟩ := ih s _ (fun t ht => hss t (by simp [ht])) (hss s (by simp)) (Or.inl rfl)
    rw [hx']
    exact ⟨x', by simp⟩

/-- **C17.** Take any pipeline of stages, any grid and any impact declarations (set, unset) that
cover the stages each dimension influences, directly or through earlier stages.  For every batch
and every state the actor is in beforehand, the actor's samples are exactly those of an actor
that configures the whole section and re-runs every stage for every sample. -/
theorem C17_stage_reuse_transparent (ids : List String) (grid : List GDim)
    (f : Nat → (Nat → Nat) → (Nat → Out) → Out) (ev : PipeState Out → Art)
    (direct reads : Nat → Nat → Prop) (hf : RespectsDeps f direct reads)
    (hdecl : ∀ d g k, grid[d]? = some g → k < ids.length → Influences direct reads d k →
      Covers ids g k)
    (batch : List Coord) (hne : batch ≠ [])
    (hb : ∀ s ∈ batch, IsSection (grid.map GDim.numPoints) s) (x : PipeState Out) :
    ∃ x', (pipeActor ids grid f ev).runBatch batch x
      = .ok (x', batch.map fun s =>
          ⟨s, 0, ev ⟨sectionConfig x.cfg s, fullRun f (sectionConfig x.cfg s) x.outs ids.length⟩⟩) := by
  match batch, hne, hb with
  | s :: ss, _, hb =>
    have hs := hb s (by simp)
    rw [Actor.runBatch, configureAll_pipe]
    · dsimp only
      have : (enumFrom 0 s).foldl (fun c p => upd c p.1 p.2) x.cfg = sectionConfig x.cfg s := by
        rw [foldl_enumFrom]; funext j; simp [sectionConfig]
      rw [this]
      exact runSections_pipe ids grid f ev direct reads hf hdecl x.cfg x.outs (s :: ss) s x.outs hb
        hs (Or.inr ⟨rfl, by simp⟩)
    · have gen : ∀ (s : Coord) (d : Nat) (p : Nat × Nat), p ∈ enumFrom d s →
          ∃ j, p.1 = d + j ∧ s[j]? = some p.2 := by
        intro s
        induction s with
        | nil => intro d p hp; simp [enumFrom] at hp
        | cons a s ih =>
          intro d p hp
          rcases List.mem_cons.1 hp with rfl | hp
          · exact ⟨0, by simp, by simp⟩
          · obtain ⟨j, h1, h2⟩ := ih (d + 1) p hp
            exact ⟨j + 1, by omega, by simpa using h2⟩
      intro p hp
      obtain ⟨j, h1, h2⟩ := gen s 0 p hp
      have hj : j < s.length := (List.getElem?_eq_some_iff.1 h2).1
      have hjg : j < grid.length := by
        have := hs.length_eq
        simp at this
        omega
      refine ⟨grid[j], by rw [h1, Nat.zero_add, List.getElem?_eq_getElem hjg], ?_⟩
      have := (List.forall₂_iff_get.1 hs).2 j hj (by simpa using hjg)
      simp only [List.get_eq_getElem, List.getElem_map] at this
      rw [List.getElem?_eq_getElem hj] at h2
      injection h2 with h2
      omega

/-- Non-vacuity: a two-stage pipeline `a → b` in which dimension 0 acts on stage `a` (no impact
declared) and dimension 1 only on stage `b`, which also reads stage `a`. -/
def demoF : Nat → (Nat → Nat) → (Nat → Nat) → Nat
  | 0, cfg, _ => 10 * cfg 0
  | _, cfg, o => o 0 + cfg 1

def demoGrid : List GDim := [⟨2, none, none⟩, ⟨2, some "b", none⟩]

theorem demo_respects : RespectsDeps demoF (fun d k => (d = 0 ∧ k = 0) ∨ (d = 1 ∧ 1 ≤ k))
    (fun _ j => j = 0) := by
  intro k cfg cfg' o o' h1 h2
  cases k with
  | zero => simp only [demoF]; rw [h1 0 (Or.inl ⟨rfl, rfl⟩)]
  | succ k =>
    simp only [demoF]
    rw [h1 1 (Or.inr ⟨rfl, by omega⟩), h2 0 (by omega) rfl]

example : ∀ d g k, demoGrid[d]? = some g → k < ["a", "b"].length →
    Influences (fun d k => (d = 0 ∧ k = 0) ∨ (d = 1 ∧ 1 ≤ k)) (fun _ j => j = 0) d k →
    Covers ["a", "b"] g k := by
  intro d g k hg hk hi
  match d, hg with
  | 0, hg =>
    simp [demoGrid] at hg; subst hg
    exact ⟨by simp, by simp⟩
  | 1, hg =>
    simp [demoGrid] at hg; subst hg
    refine ⟨?_, by simp⟩
    intro s hs
    simp at hs; subst hs
    have : 1 ≤ k := by
      cases hi with
      | direct h => rcases h with h | h <;> omega
      | through hj _ _ => omega
    exact ⟨by simp, by simpa [List.idxOf, List.findIdx, List.findIdx.go] using this⟩
  | (d + 2), hg => simp [demoGrid] at hg

example : ((pipeActor ["a", "b"] demoGrid demoF (fun x => x.outs 1)).runBatch
    [[0, 0], [0, 1], [1, 0]] ⟨fun _ => 7, fun _ => 9⟩).map (fun r => r.2.map Sample.artifact)
    = .ok [0, 1, 10] := by rfl

/-- A misspelled stage name is silently ignored.  If dimension 0 (which acts on stage `a`)
declares the unknown stage `"A"`, changing dimensions 0 and 1 together re-uses the stale output
of stage `a`: the sample of section `[1, 1]` is computed with sample point 0 of dimension 0.
The hypothesis of C17 on the declarations cannot be dropped. -/
theorem C17_unknown_stage_name_fails :
    ((pipeActor ["a", "b"] [⟨2, some "A", none⟩, ⟨2, some "b", none⟩] demoF
      (fun x => x.outs 1)).runBatch [[0, 0], [1, 1]] ⟨fun _ => 7, fun _ => 9⟩).map
        (fun r => r.2.map Sample.artifact) = .ok [0, 1] ∧
    fullRun demoF (sectionConfig (fun _ => 7) [1, 1]) (fun _ => 9) 2 1 = 11 := by
  exact ⟨rfl, rfl⟩

/-! ## Stage arguments -/

/-- **C45.** The artifact list of a sample for which all stages are executed has one entry per
combination of stage arguments, whatever the (non-raising) stages do. -/
theorem C45_full_run_covers_all_arguments {X Arg : Type} (A : Actor X Arg Art)
    (hex : ∀ k a x, ∃ x', A.exec k a x = .ok x') (hev : ∀ x, ∃ a, A.evaluate x = .ok a)
    (n start : Nat) (x : X) :
    ∃ x' arts, A.executeStages n start x = .ok (x', arts) ∧
      arts.length = ((List.range n).map fun i => (A.args (start + i)).length).prod := by
  induction n generalizing start x with
  | zero =>
    obtain ⟨a, ha⟩ := hev x
    exact ⟨x, [a], by simp [Actor.executeStages, ha], by simp⟩
  | succ n ih =>
    have hloop : ∀ (as : List Arg) (x : X), ∃ x' arts,
        argLoop (A.exec start) (Actor.executeStages A n (start + 1)) as x = .ok (x', arts) ∧
        arts.length
          = as.length * ((List.range n).map fun i => (A.args (start + 1 + i)).length).prod := by
      intro as
      induction as with
      | nil => intro x; exact ⟨x, [], rfl, by simp⟩
      | cons a as iha =>
        intro x
        obtain ⟨x1, h1⟩ := hex start a x
        obtain ⟨x2, r, h2, h3⟩ := ih (start + 1) x1
        obtain ⟨x3, rs, h4, h5⟩ := iha x2
        refine ⟨x3, r ++ rs, by simp [argLoop, h1, h2, h4], ?_⟩
        rw [List.length_append, h3, h5, List.length_cons]
        ring
    obtain ⟨x', arts, h1, h2⟩ := hloop (A.args start) x
    refine ⟨x', arts, by rw [Actor.executeStages]; exact h1, ?_⟩
    rw [h2, List.range_succ_eq_map]
    simp only [List.map_cons, List.prod_cons, List.map_map, Nat.add_zero]
    congr 2
    apply List.map_congr_left
    intro i _
    simp only [Function.comp]
    congr 2
    omega

/-- A two-stage actor whose first stage takes two argument tuples. -/
def argActor : Actor (Nat × Nat) Nat Nat where
  ids := ["a", "b"]
  grid := [⟨2, some "b", none⟩]
  args := fun k => if k = 0 then [10, 20] else [0]
  configure := fun _ i x => .ok (x.1, i)
  exec := fun k a x => .ok (if k = 0 then (a, x.2) else x)
  evaluate := fun x => .ok (x.1 + x.2)

/-- **C45 fails with stage re-use.** A sample that re-uses a stage with several argument tuples
only sees the last of them: the first section of the batch yields two artifacts (arguments 10 and
20), the second section one (argument 20 only). -/
theorem C45_reuse_drops_arguments_fails :
    (argActor.runBatch [[0], [1]] (0, 0)).map (fun r => r.2.map fun s => (s.section', s.artifact))
      = .ok [([0], 10), ([0], 20), ([1], 21)] := by rfl

end Verif.Mc
