import Verif.Props.RouteGraph
import Mathlib.Data.List.Perm.Subperm
/-! # The shortest-path search -/

namespace Seiren

/-- `Walk g cost a p c b`: there is a walk from `a` to `b` along edges of `g`, visiting the nodes `p` (with `a` and `b`)
in order, of total cost `c`. -/
inductive Spec.Walk (g : RouteGraph) (cost : RouteNodeId → RouteNodeId → Nat) (a : RouteNodeId) :
    List RouteNodeId → Nat → RouteNodeId → Prop where
  | start : Walk g cost a [a] 0 a
  | step {p c x y} (h : Walk g cost a p c x) (hj : Spec.Joined g x y) : Walk g cost a (p ++ [y]) (c + cost x y) y

open Spec

/-- The keys of a map. -/
def keys (m : NodeMap) : List Nat := m.map (·.1)

theorem lookup_none_iff (m : NodeMap) (v : Nat) : m.lookup v = none ↔ v ∉ keys m := by
  induction m with
  | nil => simp [keys]
  | cons e m ih =>
    obtain ⟨k, x⟩ := e
    rw [List.lookup_cons]
    by_cases h : v = k
    · subst h; simp [keys]
    · have hb : (v == k) = false := beq_eq_false_iff_ne.mpr h
      rw [hb]
      simp only [keys, List.map_cons, List.mem_cons, not_or]
      exact ⟨fun hl => ⟨h, ih.mp hl⟩, fun hl => ih.mpr hl.2⟩

theorem lookup_cons_self (m : NodeMap) (k x : Nat) : List.lookup k ((k, x) :: m) = some x := by
  simp

theorem lookup_cons_ne (m : NodeMap) (k x v : Nat) (h : v ≠ k) : List.lookup v ((k, x) :: m) = m.lookup v := by
  have hb : (v == k) = false := beq_eq_false_iff_ne.mpr h
  rw [List.lookup_cons, hb]

section
variable (g : RouteGraph) (cost : RouteNodeId → RouteNodeId → Nat) (start : RouteNodeId)

/-- `v` is the start, or its predecessor is among the closed nodes `E` and explains its score. -/
def From (S C E : NodeMap) (v : Nat) : Prop :=
  (v = start ∧ C.lookup v = none ∧ S.lookup v = some 0) ∨
  ∃ u su, C.lookup v = some u ∧ u ∈ keys E ∧ Joined g u v ∧ S.lookup u = some su ∧ S.lookup v = some (su + cost u v)

/-- Every closed node is explained by nodes closed before it. -/
def ClosedOk (S C : NodeMap) : NodeMap → Prop
  | [] => True
  | (v, _) :: E => v ∉ keys E ∧ From g cost start S C E v ∧ ClosedOk S C E

theorem From.congr {S C S' C' E : NodeMap} {v : Nat} (h : From g cost start S C E v)
    (hv : S'.lookup v = S.lookup v ∧ C'.lookup v = C.lookup v) (hE : ∀ u ∈ keys E, S'.lookup u = S.lookup u) :
    From g cost start S' C' E v := by
  rcases h with ⟨h1, h2, h3⟩ | ⟨u, su, h1, h2, h3, h4, h5⟩
  · exact Or.inl ⟨h1, by rw [hv.2, h2], by rw [hv.1, h3]⟩
  · exact Or.inr ⟨u, su, by rw [hv.2, h1], h2, h3, by rw [hE u h2, h4], by rw [hv.1, h5]⟩

theorem From.mono {S C E : NodeMap} {v k x : Nat} (h : From g cost start S C E v) :
    From g cost start S C ((k, x) :: E) v := by
  rcases h with h | ⟨u, su, h1, h2, h3⟩
  · exact Or.inl h
  · exact Or.inr ⟨u, su, h1, List.mem_cons_of_mem _ h2, h3⟩

theorem ClosedOk.congr {S C S' C' E : NodeMap} (h : ClosedOk g cost start S C E)
    (hE : ∀ u ∈ keys E, S'.lookup u = S.lookup u ∧ C'.lookup u = C.lookup u) : ClosedOk g cost start S' C' E := by
  induction E with
  | nil => trivial
  | cons e E ih =>
    obtain ⟨v, x⟩ := e
    obtain ⟨h1, h2, h3⟩ := h
    have hsub : ∀ u ∈ keys E, S'.lookup u = S.lookup u ∧ C'.lookup u = C.lookup u := fun u hu =>
      hE u (List.mem_cons_of_mem _ hu)
    exact ⟨h1, h2.congr g cost start (hE v List.mem_cons_self) (fun u hu => (hsub u hu).1), ih h3 hsub⟩

/-- The path that `reconstruct` finds from an explained node. -/
def Reconstructs (S C : NodeMap) (v : Nat) (rp : List Nat) : Prop :=
  (∀ fuel, rp.length ≤ fuel + 1 → reconstruct C fuel v = rp) ∧ ∃ c, S.lookup v = some c ∧ Walk g cost start rp.reverse c v

theorem From.reconstructs {S C E : NodeMap} {v : Nat} (h : From g cost start S C E v)
    (hcl : ∀ u ∈ keys E, ∃ rp, Reconstructs g cost start S C u rp ∧ rp.Nodup ∧ ∀ x ∈ rp, x ∈ keys E) (hv : v ∉ keys E) :
    ∃ rp, Reconstructs g cost start S C v rp ∧ rp.Nodup ∧ ∀ x ∈ rp, x = v ∨ x ∈ keys E := by
  rcases h with ⟨rfl, h2, h3⟩ | ⟨u, su, h1, h2, h3, h4, h5⟩
  · refine ⟨[v], ⟨?_, 0, h3, Walk.start⟩, by simp, by simp⟩
    intro fuel _
    cases fuel with
    | zero => rfl
    | succ n => simp [reconstruct, h2]
  · obtain ⟨rp, ⟨hr, c, hc, hw⟩, hnd, hsub⟩ := hcl u h2
    refine ⟨v :: rp, ⟨?_, su + cost u v, h5, ?_⟩, ?_, ?_⟩
    · intro fuel hf
      cases fuel with
      | zero =>
        rw [List.length_cons] at hf
        have : rp.length = 0 := by omega
        have hnil : rp = [] := List.length_eq_zero_iff.mp this
        have := hr 0 (by rw [hnil]; simp)
        rw [hnil] at this
        simp [reconstruct] at this
      | succ n =>
        rw [List.length_cons] at hf
        simp only [reconstruct, h1]
        rw [hr n (by omega)]
    · rw [List.reverse_cons]
      rw [h4] at hc
      cases hc
      exact Walk.step hw h3
    · rw [List.nodup_cons]
      exact ⟨fun hm => hv (hsub v hm), hnd⟩
    · intro x hx
      rw [List.mem_cons] at hx
      rcases hx with rfl | hx
      · exact Or.inl rfl
      · exact Or.inr (hsub x hx)

theorem ClosedOk.reconstructs {S C E : NodeMap} (h : ClosedOk g cost start S C E) :
    ∀ u ∈ keys E, ∃ rp, Reconstructs g cost start S C u rp ∧ rp.Nodup ∧ ∀ x ∈ rp, x ∈ keys E := by
  induction E with
  | nil => intro u hu; cases hu
  | cons e E ih =>
    obtain ⟨v, x⟩ := e
    obtain ⟨h1, h2, h3⟩ := h
    have ih' := ih h3
    intro u hu
    simp only [keys, List.map_cons, List.mem_cons] at hu
    rcases hu with rfl | hu
    · obtain ⟨rp, hr, hnd, hsub⟩ := h2.reconstructs g cost start ih' h1
      refine ⟨rp, hr, hnd, fun y hy => ?_⟩
      simp only [keys, List.map_cons, List.mem_cons]
      exact hsub y hy
    · obtain ⟨rp, hr, hnd, hsub⟩ := ih' u hu
      exact ⟨rp, hr, hnd, fun y hy => List.mem_cons_of_mem _ (hsub y hy)⟩

/-- The invariant of the search.  While the neighbours of `cur` are being relaxed, `rest` are those still to come. -/
structure AInv (goal cur : Nat) (rest : List Nat) (st : AstarState) : Prop where
  startScore : st.scores.lookup start = some 0
  startPred : st.cameFrom.lookup start = none
  queued : ∀ e ∈ st.visitNext, ∃ s, st.scores.lookup e.2 = some s ∧ s ≤ e.1
  pending : ∀ v s, st.scores.lookup v = some s → (s, v) ∈ st.visitNext ∨ st.estimateScores.lookup v = some s
  closed : ∀ u e, st.estimateScores.lookup u = some e → st.scores.lookup u = some e ∧
    ∀ w, Joined g u w → (u = cur ∧ w ∈ rest) ∨ ∃ sw, st.scores.lookup w = some sw ∧ sw ≤ e + cost u w
  mono : ∀ u e, st.estimateScores.lookup u = some e → ∀ x ∈ st.visitNext, e ≤ x.1
  closedOk : ClosedOk g cost start st.scores st.cameFrom st.estimateScores
  openOk : ∀ v s, st.estimateScores.lookup v = none → st.scores.lookup v = some s →
    From g cost start st.scores st.cameFrom st.estimateScores v
  goalOpen : st.estimateScores.lookup goal = none

theorem lookup_some_mem {m : NodeMap} {v x : Nat} (h : m.lookup v = some x) : v ∈ keys m := by
  by_contra hn
  rw [(lookup_none_iff m v).mpr hn] at h
  cases h

theorem relax_spec {q : Queue} {QI : List Entry → Prop} (hq : q.Lawful QI) (goal node nodeScore : Nat)
    (ns : List Nat) (hns : ∀ w ∈ ns, Joined g node w) (st : AstarState) (hQ : QI st.visitNext)
    (hclosed : st.estimateScores.lookup node = some nodeScore)
    (h : AInv g cost start goal node ns st)
    (hmax : ∀ u e, st.estimateScores.lookup u = some e → e ≤ nodeScore) :
    let st' := astarRelax q cost node nodeScore ns st
    QI st'.visitNext ∧ AInv g cost start goal node [] st' ∧ st'.estimateScores = st.estimateScores ∧
      st'.visitNext.length ≤ st.visitNext.length + ns.length := by
  induction ns generalizing st with
  | nil => exact ⟨hQ, h, rfl, Nat.le_refl _⟩
  | cons next rest ih =>
    have hj : Joined g node next := hns next (by simp)
    have hns' : ∀ w ∈ rest, Joined g node w := fun w hw => hns w (by simp [hw])
    intro st'
    by_cases himp : (match st.scores.lookup next with
        | some old => decide (nodeScore + cost node next < old)
        | none => true) = true
    · -- improved
      have hnc : st.estimateScores.lookup next = none := by
        cases hl : st.estimateScores.lookup next with
        | none => rfl
        | some e =>
          have h1 := (h.closed next e hl).1
          rw [h1] at himp
          have h2 := hmax next e hl
          simp only [decide_eq_true_iff] at himp
          omega
      have hnode : st.scores.lookup node = some nodeScore := (h.closed node nodeScore hclosed).1
      have hne : node ≠ next := by
        rintro rfl
        rw [hclosed] at hnc; cases hnc
      have hnstart : start ≠ next := by
        rintro rfl
        rw [h.startScore] at himp
        simp at himp
      have hkeys : ∀ u ∈ keys st.estimateScores, u ≠ next := by
        rintro u hu rfl
        exact (lookup_none_iff _ _).mp hnc hu
      set st1 : AstarState :=
        { st with
          scores := (next, nodeScore + cost node next) :: st.scores
          cameFrom := (next, node) :: st.cameFrom
          visitNext := q.push st.visitNext (nodeScore + cost node next, next) } with hst1
      have hst' : st' = astarRelax q cost node nodeScore rest st1 := by
        exact if_pos himp
      have hperm : st1.visitNext.Perm ((nodeScore + cost node next, next) :: st.visitNext) := hq.push_perm _ _ hQ
      have hS : ∀ u, u ≠ next → st1.scores.lookup u = st.scores.lookup u := fun u hu => lookup_cons_ne _ _ _ _ hu
      have hSn : st1.scores.lookup next = some (nodeScore + cost node next) := lookup_cons_self _ _ _
      have hC : ∀ u, u ≠ next → st1.cameFrom.lookup u = st.cameFrom.lookup u := fun u hu => lookup_cons_ne _ _ _ _ hu
      have hCn : st1.cameFrom.lookup next = some node := lookup_cons_self _ _ _
      have hE : st1.estimateScores = st.estimateScores := rfl
      have hdec : ∀ u s, st.scores.lookup u = some s → ∃ s', st1.scores.lookup u = some s' ∧ s' ≤ s := by
        intro u s hu
        by_cases hun : u = next
        · subst hun
          refine ⟨_, hSn, ?_⟩
          rw [hu] at himp
          simp only [decide_eq_true_iff] at himp
          omega
        · exact ⟨s, by rw [hS u hun, hu], Nat.le_refl _⟩
      have h1 : AInv g cost start goal node rest st1 := by
        refine ⟨?_, ?_, ?_, ?_, ?_, ?_, ?_, ?_, h.goalOpen⟩
        · rw [hS start hnstart, h.startScore]
        · rw [hC start hnstart, h.startPred]
        · intro e he
          rw [hperm.mem_iff, List.mem_cons] at he
          rcases he with rfl | he
          · exact ⟨_, hSn, Nat.le_refl _⟩
          · obtain ⟨s, hs, hle⟩ := h.queued e he
            obtain ⟨s', hs', hle'⟩ := hdec _ _ hs
            exact ⟨s', hs', Nat.le_trans hle' hle⟩
        · intro v s hs
          by_cases hvn : v = next
          · subst hvn
            rw [hSn] at hs
            cases hs
            exact Or.inl (hperm.mem_iff.mpr (by simp))
          · rw [hS v hvn] at hs
            rcases h.pending v s hs with hp | hp
            · exact Or.inl (hperm.mem_iff.mpr (List.mem_cons_of_mem _ hp))
            · exact Or.inr hp
        · intro u e hu
          have hcl := h.closed u e hu
          have hun : u ≠ next := hkeys u (lookup_some_mem hu)
          refine ⟨by rw [hS u hun, hcl.1], ?_⟩
          intro w hw
          rcases hcl.2 w hw with ⟨rfl, hm⟩ | ⟨sw, hsw, hle⟩
          · rw [List.mem_cons] at hm
            rcases hm with rfl | hm
            · right
              refine ⟨_, hSn, ?_⟩
              rw [hclosed] at hu
              cases hu
              exact Nat.le_refl _
            · exact Or.inl ⟨rfl, hm⟩
          · right
            obtain ⟨s', hs', hle'⟩ := hdec _ _ hsw
            exact ⟨s', hs', Nat.le_trans hle' hle⟩
        · intro u e hu x hx
          rw [hperm.mem_iff, List.mem_cons] at hx
          rcases hx with rfl | hx
          · have := hmax u e hu
            simp only
            omega
          · exact h.mono u e hu x hx
        · exact h.closedOk.congr g cost start fun u hu => ⟨hS u (hkeys u hu), hC u (hkeys u hu)⟩
        · intro v s hv hs
          by_cases hvn : v = next
          · subst hvn
            refine Or.inr ⟨node, nodeScore, hCn, lookup_some_mem hclosed, hj, by rw [hS node hne, hnode], hSn⟩
          · rw [hS v hvn] at hs
            exact (h.openOk v s hv hs).congr g cost start ⟨hS v hvn, hC v hvn⟩ (fun u hu => hS u (hkeys u hu))
      have := ih hns' st1 (hq.inv_push _ _ hQ) hclosed h1 hmax
      rw [hst']
      refine ⟨this.1, this.2.1, this.2.2.1, ?_⟩
      have hl := hperm.length_eq
      rw [List.length_cons] at hl
      have hlen := this.2.2.2
      rw [List.length_cons]
      omega
    · -- not improved
      have hst' : st' = astarRelax q cost node nodeScore rest st := by
        exact if_neg himp
      have h1 : AInv g cost start goal node rest st := by
        refine ⟨h.startScore, h.startPred, h.queued, h.pending, ?_, h.mono, h.closedOk, h.openOk, h.goalOpen⟩
        intro u e hu
        have hcl := h.closed u e hu
        refine ⟨hcl.1, ?_⟩
        intro w hw
        rcases hcl.2 w hw with ⟨rfl, hm⟩ | hw
        · rw [List.mem_cons] at hm
          rcases hm with rfl | hm
          · right
            rw [hclosed] at hu
            cases hu
            cases hl : st.scores.lookup w with
            | none => rw [hl] at himp; exact absurd rfl himp
            | some old =>
              rw [hl] at himp
              simp only [decide_eq_true_iff, not_lt] at himp
              exact ⟨old, rfl, himp⟩
          · exact Or.inl ⟨rfl, hm⟩
        · exact Or.inr hw
      have := ih hns' st hQ hclosed h1 hmax
      rw [hst']
      refine ⟨this.1, this.2.1, this.2.2.1, ?_⟩
      have := this.2.2.2
      rw [List.length_cons]
      omega

/-- The ends of edges that are not closed yet. -/
def budget (E : NodeMap) : List (RouteNodeId × RouteNodeId) → Nat
  | [] => 0
  | (a, b) :: es => (if a ∈ keys E then 0 else 1) + (if b ∈ keys E then 0 else 1) + budget E es

theorem budget_le (E : NodeMap) (es : List (RouteNodeId × RouteNodeId)) : budget E es ≤ 2 * es.length := by
  induction es with
  | nil => exact Nat.le_refl _
  | cons e es ih =>
    obtain ⟨a, b⟩ := e
    simp only [budget, List.length_cons]
    split <;> split <;> omega

theorem budget_cons (E : NodeMap) (v x : Nat) (hv : v ∉ keys E) (es : List (RouteNodeId × RouteNodeId)) :
    budget ((v, x) :: E) es + ((es.filterMap fun e => if e.1 = v then some e.2 else none).length +
      (es.filterMap fun e => if e.2 = v ∧ e.1 ≠ v then some e.1 else none).length) ≤ budget E es := by
  induction es with
  | nil => exact Nat.le_refl _
  | cons e es ih =>
    obtain ⟨a, b⟩ := e
    have hk : ∀ u, u ∈ keys ((v, x) :: E) ↔ u = v ∨ u ∈ keys E := fun u => by simp [keys]
    simp only [budget, List.filterMap_cons, hk]
    by_cases ha : a = v
    · subst ha
      by_cases hb : b = a
      · subst hb; simp only [ne_eq] at ih ⊢; simp [hv]; omega
      · simp only [true_or, if_true, hv, if_false, hb, false_or, false_and]
        split <;> simp only [List.length_cons] <;> omega
    · by_cases hb : b = v
      · subst hb
        simp only [ne_eq] at ih ⊢
        simp only [ha, false_or, if_false, true_or, if_true, hv, not_false_eq_true, and_self]
        split <;> simp only [List.length_cons] <;> omega
      · simp only [ha, hb, false_or, if_false, false_and]
        split <;> split <;> omega

theorem neighbors_budget (E : NodeMap) (v x : Nat) (hv : v ∉ keys E) :
    budget ((v, x) :: E) g.edges + (g.neighbors v).length ≤ budget E g.edges := by
  have := budget_cons E v x hv g.edges
  simp only [RouteGraph.neighbors, List.length_append, List.filterMap_reverse, List.length_reverse]
  exact this

/-- Along any walk from the start, the last node is closed with at most the walk's cost, or something at most as
costly is queued. -/
theorem AInv.walk {goal cur : Nat} {st : AstarState} (h : AInv g cost start goal cur [] st) {p : List Nat} {c x : Nat}
    (hw : Walk g cost start p c x) :
    (∃ e, st.estimateScores.lookup x = some e ∧ e ≤ c) ∨ ∃ y ∈ st.visitNext, y.1 ≤ c := by
  induction hw with
  | start =>
    rcases h.pending start 0 h.startScore with hp | hp
    · exact Or.inr ⟨_, hp, Nat.le_refl _⟩
    · exact Or.inl ⟨0, hp, Nat.le_refl _⟩
  | step hw hj ih =>
    rename_i p c x y
    rcases ih with ⟨e, he, hle⟩ | ⟨z, hz, hle⟩
    · rcases (h.closed x e he).2 y hj with ⟨-, hm⟩ | ⟨sw, hsw, hle2⟩
      · cases hm
      · rcases h.pending y sw hsw with hp | hp
        · exact Or.inr ⟨_, hp, by simp only; omega⟩
        · exact Or.inl ⟨sw, hp, by omega⟩
    · exact Or.inr ⟨z, hz, by omega⟩

theorem walk_nodes {p : List Nat} {c x : Nat} (hg : ∀ e ∈ g.edges, e.1 < g.nodes.length ∧ e.2 < g.nodes.length)
    (hs : start < g.nodes.length) (hw : Walk g cost start p c x) : ∀ v ∈ p, v < g.nodes.length := by
  induction hw with
  | start => intro v hv; rw [List.mem_singleton] at hv; rw [hv]; exact hs
  | step hw hj ih =>
    intro v hv
    rw [List.mem_append, List.mem_singleton] at hv
    rcases hv with hv | rfl
    · exact ih v hv
    · rcases hj with h | h
      · exact (hg _ h).2
      · exact (hg _ h).1

/-- What the search returns. -/
def SearchOk (goal : Nat) : Option (Nat × List RouteNodeId) → Prop
  | none => ∀ p c, ¬ Walk g cost start p c goal
  | some (c, p) => Walk g cost start p c goal ∧ p.Nodup ∧ ∀ p' c', Walk g cost start p' c' goal → c ≤ c'

/-- Skipping an entry of a closed node keeps the invariant. -/
theorem AInv.skip {goal cur : Nat} {st : AstarState} (h : AInv g cost start goal cur [] st) {est node old : Nat}
    {rest : List Entry} (hperm : st.visitNext.Perm ((est, node) :: rest)) (hest : st.estimateScores.lookup node = some old) :
    AInv g cost start goal cur [] { st with visitNext := rest } := by
  refine ⟨h.startScore, h.startPred, fun e he => h.queued e (hperm.mem_iff.mpr (List.mem_cons_of_mem _ he)), ?_,
    h.closed, fun u e hu x hx => h.mono u e hu x (hperm.mem_iff.mpr (List.mem_cons_of_mem _ hx)), h.closedOk,
    h.openOk, h.goalOpen⟩
  intro v sv hv
  rcases h.pending v sv hv with hp | hp
  · rw [hperm.mem_iff, List.mem_cons] at hp
    rcases hp with hp | hp
    · cases hp
      right
      rw [(h.closed node old hest).1] at hv
      cases hv
      exact hest
    · exact Or.inl hp
  · exact Or.inr hp

/-- Closing an open node keeps the invariant, with all its neighbours to be relaxed. -/
theorem AInv.expand {goal cur : Nat} {st : AstarState} (h : AInv g cost start goal cur [] st) {s node : Nat}
    {rest : List Entry} (hperm : st.visitNext.Perm ((s, node) :: rest)) (hmin : ∀ x ∈ st.visitNext, s ≤ x.1)
    (hsc : st.scores.lookup node = some s) (hest : st.estimateScores.lookup node = none) (hgoal : ¬ node = goal) :
    let st1 : AstarState := ⟨rest, st.scores, (node, s) :: st.estimateScores, st.cameFrom⟩
    AInv g cost start goal node (g.neighbors node) st1 ∧ st1.estimateScores.lookup node = some s ∧
      ∀ u e, st1.estimateScores.lookup u = some e → e ≤ s := by
  have hmem : (s, node) ∈ st.visitNext := hperm.mem_iff.mpr (by simp)
  have hnk : node ∉ keys st.estimateScores := (lookup_none_iff _ _).mp hest
  intro st1
  have hE : ∀ u, u ≠ node → st1.estimateScores.lookup u = st.estimateScores.lookup u :=
    fun u hu => lookup_cons_ne _ _ _ _ hu
  have hEn : st1.estimateScores.lookup node = some s := lookup_cons_self _ _ _
  have hmax : ∀ u e, st1.estimateScores.lookup u = some e → e ≤ s := by
    intro u e hu
    by_cases hun : u = node
    · subst hun; rw [hEn] at hu; cases hu; exact Nat.le_refl _
    · rw [hE u hun] at hu
      exact h.mono u e hu _ hmem
  have h1 : AInv g cost start goal node (g.neighbors node) st1 := by
    refine ⟨h.startScore, h.startPred, fun e he => h.queued e (hperm.mem_iff.mpr (List.mem_cons_of_mem _ he)),
      ?_, ?_, ?_, ?_, ?_, ?_⟩
    · intro v sv hv
      rcases h.pending v sv hv with hp | hp
      · rw [hperm.mem_iff, List.mem_cons] at hp
        rcases hp with hp | hp
        · cases hp
          exact Or.inr hEn
        · exact Or.inl hp
      · right
        by_cases hvn : v = node
        · subst hvn; rw [hest] at hp; cases hp
        · rw [hE v hvn, hp]
    · intro u e hu
      by_cases hun : u = node
      · subst hun
        rw [hEn] at hu; cases hu
        exact ⟨hsc, fun w hw => Or.inl ⟨rfl, (mem_neighbors g u w).mpr hw⟩⟩
      · rw [hE u hun] at hu
        refine ⟨(h.closed u e hu).1, fun w hw => ?_⟩
        rcases (h.closed u e hu).2 w hw with ⟨-, hm⟩ | hw
        · cases hm
        · exact Or.inr hw
    · intro u e hu x hx
      have h2 := hmax u e hu
      have h3 := hmin x (hperm.mem_iff.mpr (List.mem_cons_of_mem _ hx))
      omega
    · exact ⟨hnk, h.openOk node s hest hsc, h.closedOk⟩
    · intro v sv hv hsv
      by_cases hvn : v = node
      · subst hvn; rw [hEn] at hv; cases hv
      · rw [hE v hvn] at hv
        exact (h.openOk v sv hv hsv).mono g cost start
    · rw [hE goal (fun hh => hgoal hh.symm)]
      exact h.goalOpen
  exact ⟨h1, hEn, hmax⟩

theorem astarLoop_spec {q : Queue} {QI : List Entry → Prop} (hq : q.Lawful QI)
    (hg : ∀ e ∈ g.edges, e.1 < g.nodes.length ∧ e.2 < g.nodes.length) (hs : start < g.nodes.length) (goal : Nat)
    (fuel : Nat) (st : AstarState) (hQ : QI st.visitNext) (cur : Nat) (h : AInv g cost start goal cur [] st)
    (hfuel : st.visitNext.length + budget st.estimateScores g.edges < fuel) :
    ∃ r, astarLoop q g cost goal fuel st = .ok r ∧ SearchOk g cost start goal r := by
  induction fuel generalizing st cur with
  | zero => omega
  | succ fuel ih =>
    unfold astarLoop
    cases hpop : q.pop st.visitNext with
    | none =>
      refine ⟨none, rfl, ?_⟩
      intro p c hw
      have hnil : st.visitNext = [] := by
        by_contra hne
        obtain ⟨e, h', he⟩ := hq.pop_some _ hQ hne
        rw [hpop] at he; cases he
      rcases h.walk g cost start hw with ⟨e, he, -⟩ | ⟨y, hy, -⟩
      · rw [h.goalOpen] at he; cases he
      · rw [hnil] at hy; cases hy
    | some r =>
      obtain ⟨⟨est, node⟩, rest⟩ := r
      have hperm := hq.pop_perm _ _ _ hQ hpop
      have hmin := hq.pop_min _ _ _ hQ hpop
      have hQ' := hq.inv_pop _ _ _ hQ hpop
      have hmem : (est, node) ∈ st.visitNext := hperm.mem_iff.mpr (by simp)
      obtain ⟨s, hsc, hle⟩ := h.queued _ hmem
      simp only at hsc hle
      have hopen : st.estimateScores.lookup node = none → s = est := by
        intro hn
        rcases h.pending node s hsc with hp | hp
        · have := hmin _ hp
          simp only at this
          omega
        · rw [hn] at hp; cases hp
      simp only [hsc]
      have hlen := hperm.length_eq
      rw [List.length_cons] at hlen
      by_cases hgoal : node = goal
      · -- the goal is reached
        subst hgoal
        simp only [if_true]
        refine ⟨_, rfl, ?_⟩
        have hse := hopen h.goalOpen
        have hfrom := h.openOk node s h.goalOpen hsc
        obtain ⟨rp, ⟨hr, c, hc, hw⟩, hnd, -⟩ := hfrom.reconstructs g cost start
          (h.closedOk.reconstructs g cost start) ((lookup_none_iff _ _).mp h.goalOpen)
        rw [hsc] at hc
        cases hc
        have hlt := walk_nodes g cost start hg hs hw
        have hlen2 : rp.length ≤ g.nodes.length := by
          have hsub : rp ⊆ List.range g.nodes.length := by
            intro v hv
            rw [List.mem_range]
            exact hlt v (List.mem_reverse.mpr hv)
          have := (List.subperm_of_subset hnd hsub).length_le
          rwa [List.length_range] at this
        rw [hr g.nodes.length (by omega)]
        refine ⟨hw, List.nodup_reverse.mpr hnd, ?_⟩
        intro p' c' hw'
        rcases h.walk g cost start hw' with ⟨e, he, -⟩ | ⟨y, hy, hyc⟩
        · rw [h.goalOpen] at he; cases he
        · have := hmin y hy
          simp only at this
          omega
      · simp only [hgoal, if_false]
        cases hest : st.estimateScores.lookup node with
        | some old =>
          -- already closed: skipped
          have hold := h.mono node old hest _ hmem
          simp only at hold
          simp only [hold, decide_true, Bool.not_true, Bool.false_eq_true, if_false]
          apply ih _ hQ' cur
          · exact h.skip g cost start hperm hest
          · simp only
            omega
        | none =>
          -- expanded
          simp only [if_true]
          have hse := hopen hest
          subst hse
          have hnk : node ∉ keys st.estimateScores := (lookup_none_iff _ _).mp hest
          set st1 : AstarState := ⟨rest, st.scores, (node, s) :: st.estimateScores, st.cameFrom⟩ with hst1
          obtain ⟨h1, hEn, hmax⟩ := h.expand g cost start hperm hmin hsc hest hgoal
          have hrel := relax_spec g cost start hq goal node s (g.neighbors node)
            (fun w hw => (mem_neighbors g node w).mp hw) st1 hQ' hEn h1 hmax
          refine ih _ hrel.1 node hrel.2.1 ?_
          have hb := neighbors_budget g st.estimateScores node s hnk
          have hl := hrel.2.2.2
          rw [hrel.2.2.1]
          have hl1 : st1.visitNext.length = rest.length := rfl
          have hb1 : budget st1.estimateScores g.edges = budget ((node, s) :: st.estimateScores) g.edges := rfl
          rw [hb1]
          omega

/-- The invariant holds at the start. -/
theorem AInv.init {q : Queue} {QI : List Entry → Prop} (hq : q.Lawful QI) (goal : Nat) :
    AInv g cost start goal 0 []
      { visitNext := q.push [] (0, start), scores := [(start, 0)], estimateScores := [], cameFrom := [] } := by
  have hperm := hq.push_perm [] (0, start) hq.inv_nil
  have hmem : ∀ e, e ∈ q.push [] (0, start) ↔ e = (0, start) := by
    intro e; rw [hperm.mem_iff]; simp
  refine ⟨by simp, by simp, ?_, ?_, by simp, by simp, trivial, ?_, by simp⟩
  · intro e he
    rw [hmem] at he
    subst he
    exact ⟨0, by simp, Nat.le_refl _⟩
  · intro v s hv
    left
    rw [hmem]
    by_cases h : v = start
    · subst h; rw [lookup_cons_self] at hv; cases hv; rfl
    · rw [lookup_cons_ne _ _ _ _ h] at hv; cases hv
  · intro v s _ hv
    by_cases h : v = start
    · subst h; exact Or.inl ⟨rfl, by simp, by simp⟩
    · simp only at hv; rw [lookup_cons_ne _ _ _ _ h] at hv; cases hv

end

/-- The search terminates and finds a shortest path without repeated nodes exactly if there is a path. -/
theorem astar_spec {q : Queue} {QI : List Entry → Prop} (hq : q.Lawful QI) (g : RouteGraph)
    (hg : ∀ e ∈ g.edges, e.1 < g.nodes.length ∧ e.2 < g.nodes.length) (cost : RouteNodeId → RouteNodeId → Nat)
    (start goal : RouteNodeId) (hs : start < g.nodes.length) :
    ∃ r, astar q g cost start goal = .ok r ∧ SearchOk g cost start goal r := by
  unfold astar
  have hperm := hq.push_perm [] (0, start) hq.inv_nil
  refine astarLoop_spec g cost start hq hg hs goal _ _ (hq.inv_push _ _ hq.inv_nil) 0 (AInv.init g cost start hq goal) ?_
  · have := budget_le [] g.edges
    have hl := hperm.length_eq
    simp only [List.length_cons, List.length_nil] at hl
    simp only
    omega

end Seiren
