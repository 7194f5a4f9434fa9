import Verif.Model.Storage
/-!
# Lemmas about the storage of graphs: the linked lists of edges
-/

namespace Seiren

namespace Spec

/-- The edges at node `a` if the edges `hist` (first end, second end) have been added in this order: those with `a` as their first end,
then, turned around, those with `a` as their second end only; the newest first. -/
def incident (hist : List (Nat × Nat)) (a : Nat) : List Pg.EdgeRef :=
  (hist.zipIdx.reverse.filterMap fun p => if p.1.1 = a then some ⟨p.2, p.1.1, p.1.2⟩ else none) ++
  (hist.zipIdx.reverse.filterMap fun p => if p.1.2 = a ∧ p.1.1 ≠ a then some ⟨p.2, p.1.2, p.1.1⟩ else none)

end Spec

open Spec

namespace Pg
variable {N E : Type}

/-- From `s` on the list goes through the entries (ends and index of an edge), and ends there. -/
def Chain (sel : Nat × Nat → Nat) (es : List (Edge E)) : Nat → List ((Nat × Nat) × Nat) → Prop
  | s, [] => s = endIndex
  | s, p :: l => s = p.2 ∧ ∃ e, es[p.2]? = some e ∧ e.node = p.1 ∧ Chain sel es (sel e.next) l

theorem Chain.append {sel : Nat × Nat → Nat} {es : List (Edge E)} (xs : List (Edge E)) {s : Nat} {l : List ((Nat × Nat) × Nat)}
    (h : Chain sel es s l) : Chain sel (es ++ xs) s l := by
  induction l generalizing s with
  | nil => exact h
  | cons p l ih =>
    obtain ⟨h1, e, h2, h3, h4⟩ := h
    exact ⟨h1, e, by rw [List.getElem?_append_left (List.getElem?_eq_some_iff.mp h2).1]; exact h2, h3, ih h4⟩

/-- The entries with `a` as the first end. -/
def outs (hist : List (Nat × Nat)) (a : Nat) : List ((Nat × Nat) × Nat) := hist.zipIdx.reverse.filter fun p => p.1.1 = a
/-- The entries with `a` as the second end. -/
def ins (hist : List (Nat × Nat)) (a : Nat) : List ((Nat × Nat) × Nat) := hist.zipIdx.reverse.filter fun p => p.1.2 = a

theorem outs_snoc (hist : List (Nat × Nat)) (x y a : Nat) :
    outs (hist ++ [(x, y)]) a = if x = a then ((x, y), hist.length) :: outs hist a else outs hist a := by
  unfold outs
  rw [List.zipIdx_append, List.reverse_append]
  by_cases h : x = a <;> simp [h]

theorem ins_snoc (hist : List (Nat × Nat)) (x y a : Nat) :
    ins (hist ++ [(x, y)]) a = if y = a then ((x, y), hist.length) :: ins hist a else ins hist a := by
  unfold ins
  rw [List.zipIdx_append, List.reverse_append]
  by_cases h : y = a <;> simp [h]

/-- The ends of the edges, in the order in which they were added. -/
def Graph.hist (g : Graph N E) : List (Nat × Nat) := g.edges.map Edge.node

/-- The invariant of the storage. -/
structure Linked (g : Graph N E) : Prop where
  nodes : g.nodes.length ≤ endIndex
  edges : g.edges.length ≤ endIndex
  ends : ∀ e ∈ g.edges, e.node.1 < g.nodes.length ∧ e.node.2 < g.nodes.length
  out : ∀ (a : Nat) (n : Node N), g.nodes[a]? = some n → Chain Prod.fst g.edges n.next.1 (outs g.hist a)
  inc : ∀ (a : Nat) (n : Node N), g.nodes[a]? = some n → Chain Prod.snd g.edges n.next.2 (ins g.hist a)

theorem linked_new : Linked (Graph.new : Graph N E) := by
  refine ⟨Nat.zero_le _, Nat.zero_le _, by simp [Graph.new], ?_, ?_⟩ <;> simp [Graph.new]

theorem Linked.hist_ends {g : Graph N E} (h : Linked g) {p : Nat × Nat} (hp : p ∈ g.hist) : p.1 < g.nodes.length ∧ p.2 < g.nodes.length := by
  obtain ⟨e, he, rfl⟩ := List.mem_map.mp hp
  exact h.ends e he

theorem outs_eq_nil {hist : List (Nat × Nat)} {a : Nat} (h : ∀ p ∈ hist, p.1 ≠ a) : outs hist a = [] := by
  unfold outs
  rw [List.filter_eq_nil_iff]
  rintro ⟨p, i⟩ hp
  have := List.mem_zipIdx (List.mem_reverse.mp hp)
  have hm : p ∈ hist := by rw [this.2.2]; exact List.getElem_mem _
  simpa using h p hm

theorem ins_eq_nil {hist : List (Nat × Nat)} {a : Nat} (h : ∀ p ∈ hist, p.2 ≠ a) : ins hist a = [] := by
  unfold ins
  rw [List.filter_eq_nil_iff]
  rintro ⟨p, i⟩ hp
  have := List.mem_zipIdx (List.mem_reverse.mp hp)
  have hm : p ∈ hist := by rw [this.2.2]; exact List.getElem_mem _
  simpa using h p hm

theorem Linked.addNode {g g' : Graph N E} (h : Linked g) {w : N} {i : Nat} (ha : g.addNode w = .ok (g', i)) :
    Linked g' ∧ i = g.nodes.length ∧ g'.nodeWeights = g.nodeWeights ++ [w] ∧ g'.edges = g.edges := by
  unfold Graph.addNode at ha
  split at ha
  · cases ha
  · rename_i hne
    injection ha with ha
    injection ha with h1 h2
    subst h1 h2
    have hn := h.nodes
    refine ⟨⟨by simp; omega, h.edges, ?_, ?_, ?_⟩, rfl, by simp [Graph.nodeWeights], rfl⟩
    · intro e he
      have := h.ends e he
      simp
      omega
    · intro a n hn
      rw [List.getElem?_append] at hn
      split at hn
      · exact h.out a n hn
      · rename_i hlt
        have : n.next = (endIndex, endIndex) := by
          cases hk : a - g.nodes.length with
          | zero => rw [hk] at hn; simp at hn; rw [← hn]
          | succ k => rw [hk] at hn; simp at hn
        rw [this]
        have : outs (Graph.hist (N := N) ⟨g.nodes ++ [⟨w, (endIndex, endIndex)⟩], g.edges⟩) a = [] := by
          refine outs_eq_nil fun p hp => ?_
          have := (h.hist_ends (p := p) hp).1
          omega
        rw [this]
        rfl
    · intro a n hn
      rw [List.getElem?_append] at hn
      split at hn
      · exact h.inc a n hn
      · rename_i hlt
        have : n.next = (endIndex, endIndex) := by
          cases hk : a - g.nodes.length with
          | zero => rw [hk] at hn; simp at hn; rw [← hn]
          | succ k => rw [hk] at hn; simp at hn
        rw [this]
        have : ins (Graph.hist (N := N) ⟨g.nodes ++ [⟨w, (endIndex, endIndex)⟩], g.edges⟩) a = [] := by
          refine ins_eq_nil fun p hp => ?_
          have := (h.hist_ends (p := p) hp).2
          omega
        rw [this]
        rfl

theorem addNode_ok (g : Graph N E) (w : N) (h : g.nodes.length < endIndex) : ∃ g', g.addNode w = .ok (g', g.nodes.length) := by
  unfold Graph.addNode
  rw [if_neg (by omega)]
  exact ⟨_, rfl⟩

theorem Linked.addEdge {g g' : Graph N E} (h : Linked g) {a b : Nat} {w : E} {i : Nat} (ha : g.addEdge a b w = .ok (g', i)) :
    Linked g' ∧ i = g.edges.length ∧ g'.nodeWeights = g.nodeWeights ∧ g'.edgeWeights = g.edgeWeights ++ [w] ∧ g'.hist = g.hist ++ [(a, b)] := by
  unfold Graph.addEdge at ha
  simp only at ha
  split at ha
  · cases ha
  rename_i hne
  split at ha
  swap
  · cases ha
  rename_i an bn han hbn
  have hlen := h.edges
  have hla := (List.getElem?_eq_some_iff.mp han).1
  have hlb := (List.getElem?_eq_some_iff.mp hbn).1
  split at ha
  · -- a loop
    rename_i hab
    subst hab
    rw [han] at hbn
    injection hbn with hbn
    subst hbn
    injection ha with ha
    injection ha with h1 h2
    subst h1 h2
    have hh : Graph.hist (⟨g.nodes.modify a fun n => { n with next := (g.edges.length, g.edges.length) }, g.edges ++ [⟨w, an.next, (a, a)⟩]⟩ : Graph N E)
        = g.hist ++ [(a, a)] := by simp [Graph.hist]
    have hhl : g.hist.length = g.edges.length := by simp [Graph.hist]
    refine ⟨⟨by simpa using h.nodes, by simp; omega, ?_, ?_, ?_⟩, rfl, ?_, by simp [Graph.edgeWeights], hh⟩
    · intro e he
      rw [List.length_modify]
      rcases List.mem_append.mp he with he | he
      · exact h.ends e he
      · rw [List.mem_singleton.mp he]; exact ⟨hla, hla⟩
    · intro x n hx
      rw [hh, outs_snoc, hhl]
      rw [List.getElem?_modify] at hx
      split
      · rename_i hax
        subst hax
        rw [han] at hx
        simp at hx
        subst hx
        exact ⟨rfl, _, by simp; rfl, rfl, (h.out a an han).append _⟩
      · rename_i hax
        simp [hax] at hx
        exact (h.out x n hx).append _
    · intro x n hx
      rw [hh, ins_snoc, hhl]
      rw [List.getElem?_modify] at hx
      split
      · rename_i hax
        subst hax
        rw [han] at hx
        simp at hx
        subst hx
        exact ⟨rfl, _, by simp; rfl, rfl, (h.inc a an han).append _⟩
      · rename_i hax
        simp [hax] at hx
        exact (h.inc x n hx).append _
    · unfold Graph.nodeWeights
      simp only
      refine List.ext_getElem? fun k => ?_
      rw [List.getElem?_map, List.getElem?_modify, List.getElem?_map]
      cases g.nodes[k]? with
      | none => rfl
      | some n => by_cases hk : a = k <;> simp [hk]
  · -- different ends
    rename_i hab
    injection ha with ha
    injection ha with h1 h2
    subst h1 h2
    have hh : Graph.hist (⟨(g.nodes.modify a fun n => { n with next := (g.edges.length, n.next.2) }).modify b fun n => { n with next := (n.next.1, g.edges.length) },
        g.edges ++ [⟨w, (an.next.1, bn.next.2), (a, b)⟩]⟩ : Graph N E) = g.hist ++ [(a, b)] := by simp [Graph.hist]
    have hhl : g.hist.length = g.edges.length := by simp [Graph.hist]
    refine ⟨⟨by simpa using h.nodes, by simp; omega, ?_, ?_, ?_⟩, rfl, ?_, by simp [Graph.edgeWeights], hh⟩
    · intro e he
      rw [List.length_modify, List.length_modify]
      rcases List.mem_append.mp he with he | he
      · exact h.ends e he
      · rw [List.mem_singleton.mp he]; exact ⟨hla, hlb⟩
    · intro x n hx
      rw [hh, outs_snoc, hhl]
      rw [List.getElem?_modify, List.getElem?_modify] at hx
      split
      · rename_i hax
        subst hax
        rw [han] at hx
        simp [Ne.symm hab] at hx
        subst hx
        exact ⟨rfl, _, by simp; rfl, rfl, (h.out a an han).append _⟩
      · rename_i hax
        simp only [hax, if_false] at hx
        cases hk : g.nodes[x]? with
        | none => rw [hk] at hx; simp at hx
        | some m =>
          rw [hk] at hx
          have := (h.out x m hk).append [⟨w, (an.next.1, bn.next.2), (a, b)⟩]
          by_cases hbx : b = x
          · simp [hbx] at hx
            subst hx
            exact this
          · simp [hbx] at hx
            subst hx
            exact this
    · intro x n hx
      rw [hh, ins_snoc, hhl]
      rw [List.getElem?_modify, List.getElem?_modify] at hx
      split
      · rename_i hbx
        subst hbx
        rw [hbn] at hx
        simp [hab] at hx
        subst hx
        exact ⟨rfl, _, by simp; rfl, rfl, (h.inc b bn hbn).append _⟩
      · rename_i hbx
        simp only [hbx, if_false] at hx
        cases hk : g.nodes[x]? with
        | none => rw [hk] at hx; simp at hx
        | some m =>
          rw [hk] at hx
          have := (h.inc x m hk).append [⟨w, (an.next.1, bn.next.2), (a, b)⟩]
          by_cases hax : a = x
          · simp [hax] at hx
            subst hx
            exact this
          · simp [hax] at hx
            subst hx
            exact this
    · unfold Graph.nodeWeights
      simp only
      refine List.ext_getElem? fun k => ?_
      rw [List.getElem?_map, List.getElem?_modify, List.getElem?_modify, List.getElem?_map]
      cases g.nodes[k]? with
      | none => rfl
      | some n => by_cases hk : a = k <;> by_cases hk' : b = k <;> simp [hk, hk']

theorem addEdge_ok (g : Graph N E) (w : E) {a b : Nat} (h : g.edges.length < endIndex) (ha : a < g.nodes.length) (hb : b < g.nodes.length) :
    ∃ g', g.addEdge a b w = .ok (g', g.edges.length) := by
  unfold Graph.addEdge
  simp only
  rw [if_neg (by omega), List.getElem?_eq_getElem ha, List.getElem?_eq_getElem hb]
  simp only
  split
  · exact ⟨_, rfl⟩
  · exact ⟨_, rfl⟩

/-! ## The iterator -/

theorem getElem?_end {es : List (Edge E)} (h : es.length ≤ endIndex) : es[endIndex]? = none := List.getElem?_eq_none h

theorem stepIncoming_eq {g : Graph N E} (hlen : g.edges.length ≤ endIndex) (a : Nat) :
    ∀ (l : List ((Nat × Nat) × Nat)) (s fuel : Nat), l.length < fuel → Chain Prod.snd g.edges s l →
    match l.dropWhile (fun p => decide (p.1.1 = a)) with
    | [] => g.stepIncoming a fuel s = none
    | p :: l' => ∃ s', g.stepIncoming a fuel s = some (⟨p.2, p.1.2, p.1.1⟩, s') ∧ Chain Prod.snd g.edges s' l'
  | [], s, fuel, hf, h => by
    obtain ⟨fuel, rfl⟩ : ∃ k, fuel = k + 1 := ⟨fuel - 1, by simp at hf; omega⟩
    have hs : s = endIndex := h
    subst hs
    simp only [List.dropWhile_nil]
    unfold Graph.stepIncoming
    rw [getElem?_end hlen]
  | p :: l, s, fuel, hf, h => by
    obtain ⟨fuel, rfl⟩ : ∃ k, fuel = k + 1 := ⟨fuel - 1, by simp at hf; omega⟩
    obtain ⟨rfl, e, he, hn, hc⟩ := h
    have ih := stepIncoming_eq hlen a l e.next.2 fuel (by simp at hf; omega) hc
    rw [List.dropWhile_cons]
    unfold Graph.stepIncoming
    rw [he]
    simp only [hn]
    by_cases hp : p.1.1 = a
    · simp only [hp, decide_true, if_true]
      exact ih
    · simp only [hp, decide_false, if_false, Bool.false_eq_true]
      exact ⟨_, rfl, hc⟩

theorem filterMap_dropWhile (a : Nat) (l : List ((Nat × Nat) × Nat)) :
    (l.filterMap fun p => if p.1.1 ≠ a then some (⟨p.2, p.1.2, p.1.1⟩ : EdgeRef) else none) =
    match l.dropWhile (fun p => decide (p.1.1 = a)) with
    | [] => []
    | p :: l' => ⟨p.2, p.1.2, p.1.1⟩ :: l'.filterMap fun p => if p.1.1 ≠ a then some (⟨p.2, p.1.2, p.1.1⟩ : EdgeRef) else none := by
  induction l with
  | nil => rfl
  | cons p l ih =>
    rw [List.dropWhile_cons, List.filterMap_cons]
    by_cases hp : p.1.1 = a
    · simp only [hp, ne_eq, not_true_eq_false, if_false, decide_true, if_true]
      exact ih
    · simp [hp]

theorem dropWhile_length (a : Nat) {l l' : List ((Nat × Nat) × Nat)} {p : (Nat × Nat) × Nat}
    (h : l.dropWhile (fun p => decide (p.1.1 = a)) = p :: l') : l'.length < l.length := by
  have := (List.dropWhile_sublist (fun p : (Nat × Nat) × Nat => decide (p.1.1 = a)) (l := l)).length_le
  rw [h] at this
  simp at this
  omega

theorem collect_eq {g : Graph N E} (hlen : g.edges.length ≤ endIndex) (a : Nat) :
    ∀ (fuel : Nat) (l0 l1 : List ((Nat × Nat) × Nat)) (s0 s1 : Nat), l0.length + l1.length < fuel → l1.length ≤ g.edges.length →
    Chain Prod.fst g.edges s0 l0 → Chain Prod.snd g.edges s1 l1 →
    g.collect a fuel (s0, s1) = l0.map (fun p => ⟨p.2, p.1.1, p.1.2⟩) ++
      l1.filterMap fun p => if p.1.1 ≠ a then some (⟨p.2, p.1.2, p.1.1⟩ : EdgeRef) else none
  | 0, _, _, _, _, hf, _, _, _ => by omega
  | fuel + 1, p :: l0, l1, s0, s1, hf, hl, h0, h1 => by
    obtain ⟨rfl, e, he, hn, hc⟩ := h0
    unfold Graph.collect Graph.step
    simp only [he]
    rw [collect_eq hlen a fuel l0 l1 e.next.1 s1 (by simp at hf; omega) hl hc h1, hn]
    rfl
  | fuel + 1, [], l1, s0, s1, hf, hl, h0, h1 => by
    have hs : s0 = endIndex := h0
    subst hs
    have hstep := stepIncoming_eq hlen a l1 s1 (g.edges.length + 1) (by omega) h1
    rw [List.map_nil, List.nil_append, filterMap_dropWhile]
    unfold Graph.collect Graph.step
    simp only [getElem?_end hlen]
    cases hd : l1.dropWhile (fun p => decide (p.1.1 = a)) with
    | nil =>
      rw [hd] at hstep
      simp only at hstep
      rw [hstep]
      rfl
    | cons p l' =>
      rw [hd] at hstep
      obtain ⟨s', he, hc⟩ := hstep
      rw [he]
      have hlt := dropWhile_length a hd
      simp only [Option.map_some]
      rw [collect_eq hlen a fuel [] l' endIndex s' (by simp at hf ⊢; omega) (by omega) rfl hc]
      rfl

theorem outs_length (hist : List (Nat × Nat)) (a : Nat) : (outs hist a).length ≤ hist.length := by
  refine (List.length_filter_le _ _).trans ?_
  simp

theorem ins_length (hist : List (Nat × Nat)) (a : Nat) : (ins hist a).length ≤ hist.length := by
  refine (List.length_filter_le _ _).trans ?_
  simp

theorem incident_eq (hist : List (Nat × Nat)) (a : Nat) :
    incident hist a = (outs hist a).map (fun p => ⟨p.2, p.1.1, p.1.2⟩) ++
      (ins hist a).filterMap fun p => if p.1.1 ≠ a then some (⟨p.2, p.1.2, p.1.1⟩ : EdgeRef) else none := by
  unfold incident outs ins
  congr 1
  · rw [← List.filterMap_eq_map, List.filterMap_filter]
    refine List.filterMap_congr fun p _ => ?_
    by_cases h : p.1.1 = a <;> simp [h]
  · rw [List.filterMap_filter]
    refine List.filterMap_congr fun p _ => ?_
    by_cases h : p.1.2 = a <;> by_cases h' : p.1.1 = a <;> simp [h, h']

theorem Linked.edgesOf_eq {g : Graph N E} (h : Linked g) (a : Nat) : g.edgesOf a = incident g.hist a := by
  have hh : g.hist.length = g.edges.length := by simp [Graph.hist]
  rw [incident_eq]
  unfold Graph.edgesOf Graph.firstEdges
  have h1 := outs_length g.hist a
  have h2 := ins_length g.hist a
  cases hn : g.nodes[a]? with
  | none =>
    have hge : g.nodes.length ≤ a := List.getElem?_eq_none_iff.mp hn
    have e1 : outs g.hist a = [] := outs_eq_nil fun p hp => by have := (h.hist_ends hp).1; omega
    have e2 : ins g.hist a = [] := ins_eq_nil fun p hp => by have := (h.hist_ends hp).2; omega
    rw [e1, e2]
    exact collect_eq h.edges a _ [] [] _ _ (by simp) (by simp) rfl rfl
  | some n =>
    exact collect_eq h.edges a _ _ _ _ _ (by omega) (by omega) (h.out a n hn) (h.inc a n hn)

/-! ## Updates of weights -/

theorem nodes_next {g g' : Graph N E} (he : g'.edges = g.edges) (hn : g'.nodes.map Node.next = g.nodes.map Node.next) (h : Linked g) : Linked g' := by
  have hl : g'.nodes.length = g.nodes.length := by simpa using congrArg List.length hn
  have hget : ∀ (a : Nat) n, g'.nodes[a]? = some n → ∃ n', g.nodes[a]? = some n' ∧ n'.next = n.next := by
    intro a n ha
    have := congrArg (·[a]?) hn
    simp only [List.getElem?_map, ha, Option.map_some] at this
    cases hk : g.nodes[a]? with
    | none => rw [hk] at this; simp at this
    | some n' => rw [hk] at this; simp at this; exact ⟨n', rfl, this.symm⟩
  have hh : g'.hist = g.hist := by unfold Graph.hist; rw [he]
  refine ⟨hl ▸ h.nodes, he ▸ h.edges, ?_, ?_, ?_⟩
  · rw [he, hl]; exact h.ends
  · intro a n ha
    obtain ⟨n', h1, h2⟩ := hget a n ha
    rw [he, hh, ← h2]
    exact h.out a n' h1
  · intro a n ha
    obtain ⟨n', h1, h2⟩ := hget a n ha
    rw [he, hh, ← h2]
    exact h.inc a n' h1

theorem Chain.congr {E' : Type} {sel : Nat × Nat → Nat} {es : List (Edge E)} {es' : List (Edge E')}
    (h : es'.map (fun e => (e.next, e.node)) = es.map (fun e => (e.next, e.node))) {s : Nat} {l : List ((Nat × Nat) × Nat)}
    (hc : Chain sel es s l) : Chain sel es' s l := by
  induction l generalizing s with
  | nil => exact hc
  | cons p l ih =>
    obtain ⟨h1, e, h2, h3, h4⟩ := hc
    have := congrArg (·[p.2]?) h
    simp only [List.getElem?_map, h2, Option.map_some] at this
    cases hk : es'[p.2]? with
    | none => rw [hk] at this; simp at this
    | some e' =>
      rw [hk] at this
      simp at this
      exact ⟨h1, e', hk, this.2.trans h3, ih (this.1 ▸ h4)⟩

theorem edges_next {g g' : Graph N E} (hn : g'.nodes = g.nodes)
    (he : g'.edges.map (fun e => (e.next, e.node)) = g.edges.map (fun e => (e.next, e.node))) (h : Linked g) : Linked g' ∧ g'.hist = g.hist := by
  have hl : g'.edges.length = g.edges.length := by simpa using congrArg List.length he
  have hh : g'.hist = g.hist := by
    have := congrArg (List.map Prod.snd) he
    rw [List.map_map, List.map_map] at this
    exact this
  refine ⟨⟨hn ▸ h.nodes, hl ▸ h.edges, ?_, ?_, ?_⟩, hh⟩
  · intro e hm
    rw [hn]
    have : e.node ∈ g.hist := hh ▸ List.mem_map_of_mem hm
    exact h.hist_ends this
  · intro a n ha
    rw [hh]
    exact (h.out a n (hn ▸ ha)).congr he
  · intro a n ha
    rw [hh]
    exact (h.inc a n (hn ▸ ha)).congr he

theorem Linked.modifyWeight {g : Graph N E} (h : Linked g) (i : Nat) (f : N → N) : Linked (g.modifyWeight i f) := by
  refine nodes_next (g := g) rfl ?_ h
  unfold Graph.modifyWeight
  refine List.ext_getElem? fun k => ?_
  rw [List.getElem?_map, List.getElem?_modify, List.getElem?_map]
  cases g.nodes[k]? with
  | none => rfl
  | some n => by_cases hk : i = k <;> simp [hk]

theorem nodeWeights_modifyWeight (g : Graph N E) (i : Nat) (f : N → N) : (g.modifyWeight i f).nodeWeights = g.nodeWeights.modify i f := by
  unfold Graph.modifyWeight Graph.nodeWeights
  refine List.ext_getElem? fun k => ?_
  rw [List.getElem?_map, List.getElem?_modify, List.getElem?_modify, List.getElem?_map]
  cases g.nodes[k]? with
  | none => rfl
  | some n => by_cases hk : i = k <;> simp [hk]

theorem nodeWeight_eq (g : Graph N E) (i : Nat) : g.nodeWeight i = g.nodeWeights[i]? := by
  unfold Graph.nodeWeight Graph.nodeWeights
  rw [List.getElem?_map]

end Pg

end Seiren
