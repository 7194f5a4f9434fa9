import Verif.Proofs.StepsBound
/-! # How many steps are needed at least -/

namespace Seiren.StepBound
open Steps Spec

theorem le_concat_filter {α β : Type} (f : α → Steps (List β)) (P : α → Bool) (k : Nat) (xs : List α) (h : ∀ x ∈ xs, P x = true → k ≤ (f x).steps) :
    (xs.filter P).length * (k + 1) ≤ (concat f xs).steps := by
  induction xs with
  | nil => simp
  | cons x xs ih =>
    rw [concat, round_steps, andThen_steps, andThen_steps, done_steps, List.filter_cons]
    have h2 := ih fun x hx => h x (by simp [hx])
    split
    · next hp =>
      have h1 := h x (by simp) hp
      rw [List.length_cons, Nat.succ_mul]
      omega
    · omega

theorem le_flatMap_filter {α β : Type} (f : α → List β) (P : β → Bool) (k : Nat) (xs : List α) (h : ∀ x ∈ xs, k ≤ ((f x).filter P).length) :
    xs.length * k ≤ ((xs.flatMap f).filter P).length := by
  induction xs with
  | nil => simp
  | cons x xs ih =>
    rw [List.flatMap_cons, List.filter_append, List.length_append, List.length_cons, Nat.succ_mul]
    have h1 := h x (by simp)
    have h2 := ih fun x hx => h x (by simp [hx])
    omega

/-- The street to the left of a column of tables. -/
def leftStreet (p : Point) : Bool := decide (p.x = 10 ∨ p.x = 390 ∨ p.x = 770)

theorem column_cases (k : Nat) : ((k % 3 : Nat) : Rat) = 0 ∨ ((k % 3 : Nat) : Rat) = 1 ∨ ((k % 3 : Nat) : Rat) = 2 := by
  rcases mod_three k with h | h | h <;> rw [h] <;> norm_num

theorem leftStreet_free (ns : List Nat) (p : Point) (h : leftStreet p = true) :
    ((tableRects ns).map fun r => r.insetBy (-(SHAPE_JUNCTION_MARGIN - 1)) (-(SHAPE_JUNCTION_MARGIN - 1))).any (·.containsPoint p) = false := by
  rw [List.any_eq_false]
  intro r hr
  obtain ⟨r', hr', rfl⟩ := List.mem_map.mp hr
  rw [tableRects, List.mem_map] at hr'
  obtain ⟨⟨n, k⟩, -, rfl⟩ := hr'
  simp only [leftStreet, decide_eq_true_eq] at h
  simp only [Rect.containsPoint, Rect.insetBy, Rect.minX, Rect.maxX, tableRect, SHAPE_JUNCTION_MARGIN, RECORD_SPACE, Bool.and_eq_true, decide_eq_true_eq,
    ge_iff_le]
  rintro ⟨⟨⟨h1, h2⟩, -⟩, -⟩
  have h2 := of_decide_eq_true h2
  have hw : max ((300 : Rat) - -(80 / 2 - 1) * 2) 0 = 378 := by norm_num
  rcases column_cases k with hk | hk | hk <;> rcases h with h | h | h <;> linarith

theorem sRemoveOverlapped_min {doc : Document} {ns : List Nat} (hs : shapeRects doc = tableRects ns) (js : List Point) :
    (js.filter leftStreet).length * (ns.length + 1) ≤ (sRemoveOverlapped doc js).steps := by
  rw [sRemoveOverlapped, andThen_steps, sShapeRects_val, hs]
  refine le_trans (le_concat_filter _ _ _ _ fun j _ hj => ?_) (Nat.le_add_left _ _)
  rw [andThen_steps, any_all _ _ (leftStreet_free ns j hj)]
  simp [tableRects]

theorem third_count (l : List Nat) (c i : Nat) (hc : c < 3) :
    l.length ≤ 3 * ((l.zipIdx i).filter fun p => p.2 % 3 = c).length + (c + 3 - i % 3) % 3 := by
  induction l generalizing i with
  | nil => simp
  | cons n l ih =>
    have := ih (i + 1)
    rw [List.zipIdx_cons, List.filter_cons, List.length_cons]
    by_cases h : i % 3 = c
    · rw [if_pos (by simpa using h), List.length_cons]
      omega
    · rw [if_neg (by simpa using h)]
      omega

theorem corner_count (ns : List Nat) (c : Nat) (hc : c < 3) :
    2 * (ns.length / 3) ≤ ((corners ns).filter fun j => j.x = 10 + 380 * (c : Rat)).length := by
  have h1 := third_count ns c 0 hc
  have h2 : ∀ l : List (Nat × Nat), 2 * (l.filter fun p => p.2 % 3 = c).length ≤
      (((l.map fun (n, k) => tableRect ns k n).flatMap frameCorners).filter fun j => j.x = 10 + 380 * (c : Rat)).length := by
    intro l
    induction l with
    | nil => simp
    | cons p l ih =>
      rw [List.filter_cons, List.map_cons, List.flatMap_cons, List.filter_append, List.length_append]
      by_cases h : p.2 % 3 = c
      · rw [if_pos (by simpa using h), List.length_cons]
        have h3 : (50 : Rat) + 380 * (c : Rat) - 40 = 10 + 380 * c := by ring
        have : 2 ≤ ((frameCorners (tableRect ns p.2 p.1)).filter fun j => j.x = 10 + 380 * (c : Rat)).length := by
          simp only [frameCorners, tableRect, h, h3, List.filter_cons, decide_true, if_true, List.length_cons]
          split <;> simp
        have ih' := Nat.add_le_add this ih
        refine le_trans ?_ ih'
        omega
      · rw [if_neg (by simpa using h)]
        omega
  have h3 := h2 ns.zipIdx
  refine le_trans ?_ h3
  omega

/-- Every table has two of its corners in the street to its left. -/
theorem corner_left_count (ns : List Nat) : 2 * ns.length ≤ ((corners ns).filter leftStreet).length := by
  have h2 : ∀ l : List (Nat × Nat), 2 * l.length ≤ (((l.map fun (n, k) => tableRect ns k n).flatMap frameCorners).filter leftStreet).length := by
    intro l
    induction l with
    | nil => simp
    | cons p l ih =>
      rw [List.map_cons, List.flatMap_cons, List.filter_append, List.length_append, List.length_cons]
      have hleft : ∀ y, leftStreet ⟨(50 : Rat) + 380 * ((p.2 % 3 : Nat) : Rat) - 40, y⟩ = true := by
        intro y
        rw [leftStreet, decide_eq_true_eq]
        rcases column_cases p.2 with h | h | h <;> rw [h] <;> norm_num
      have : 2 ≤ ((frameCorners (tableRect ns p.2 p.1)).filter leftStreet).length := by
        simp only [frameCorners, tableRect, List.filter_cons, hleft, if_true]
        split <;> split <;> simp
      have ih' := Nat.add_le_add this ih
      refine le_trans ?_ ih'
      omega
  have := h2 ns.zipIdx
  rwa [List.length_zipIdx] at this

/-- From a left end the whole street to the left of the column is seen. -/
theorem left_port_count {doc : Document} {ns : List Nat} (hs : shapeRects doc = tableRects ns) (p : TerminalPort) (c : Nat) (hc : c < 3)
    (ho : p.orientation = .left) (hx : p.location.x = 50 + 380 * (c : Rat)) :
    2 * (ns.length / 3) ≤ ((junctionsFromTerminalPort doc p (corners ns)).filter leftStreet).length := by
  rw [junctionsFromTerminalPort, ho, hs]
  simp only
  have hc3 : (c : Rat) = 0 ∨ (c : Rat) = 1 ∨ (c : Rat) = 2 := by
    obtain rfl | rfl | rfl : c = 0 ∨ c = 1 ∨ c = 2 := by omega
    all_goals norm_num
  have hfold : ∀ (P : Rect → Prop) [DecidablePred P] (l : List Rect), (∀ r ∈ l, r.maxX < p.location.x → r.maxX ≤ 10 + 380 * (c : Rat)) →
      ∀ s : Rat, s ≤ 10 + 380 * (c : Rat) →
      l.foldl (fun m r => if r.maxX < p.location.x ∧ P r then max m r.maxX else m) s ≤ 10 + 380 * (c : Rat) := by
    intro P _ l hl
    induction l with
    | nil => intro s hs; exact hs
    | cons r l ih =>
      intro s hs
      rw [List.foldl_cons]
      refine ih (fun r hr => hl r (by simp [hr])) _ ?_
      split
      · next h => exact max_le hs (hl r (by simp) h.1)
      · exact hs
  have hmin := hfold (fun r => r.intersectsLine p.location ⟨f32Min, p.location.y⟩ = true)
    ((tableRects ns).map fun r => r.insetBy (-SHAPE_JUNCTION_MARGIN) (-SHAPE_JUNCTION_MARGIN)) (by
      intro r hr h
      obtain ⟨r', hr', rfl⟩ := List.mem_map.mp hr
      rw [tableRects, List.mem_map] at hr'
      obtain ⟨⟨n, k⟩, -, rfl⟩ := hr'
      rw [hx] at h
      simp only [Rect.insetBy, Rect.maxX, tableRect, SHAPE_JUNCTION_MARGIN, RECORD_SPACE] at h ⊢
      rw [show max ((300 : Rat) - -(80 / 2) * 2) 0 = 380 by norm_num] at h ⊢
      rcases column_cases k with hk | hk | hk <;> rw [hk] at h ⊢ <;> rcases hc3 with hc3 | hc3 | hc3 <;> rw [hc3] at h ⊢ <;> linarith) 0 (by positivity)
  generalize List.foldl _ (0 : Rat) _ = minX at hmin ⊢
  refine (corner_count ns c hc).trans ?_
  have hstreet : ∀ y, leftStreet ⟨10 + 380 * (c : Rat), y⟩ = true := by
    intro y
    rw [leftStreet, decide_eq_true_eq]
    rcases hc3 with h | h | h <;> rw [h] <;> norm_num
  induction corners ns with
  | nil => simp
  | cons j js ih =>
    rw [List.filter_cons, List.filterMap_cons]
    by_cases hj : j.x = 10 + 380 * (c : Rat)
    · rw [if_pos (by simpa using hj), hj, hx, if_pos ⟨by linarith, hmin⟩, List.filter_cons, if_pos (hstreet _)]
      rw [List.length_cons, List.length_cons, ← hx]
      exact Nat.succ_le_succ ih
    · rw [if_neg (by simpa using hj)]
      refine ih.trans ?_
      split
      · exact Nat.le_refl _
      · rw [List.filter_cons]
        split
        · rw [List.length_cons]; omega
        · exact Nat.le_refl _

theorem refRect_left (ns : List Nat) (r : NodeRef) : ∃ c : Nat, c < 3 ∧ (refRect ns r).origin.x = 50 + 380 * (c : Rat) := by
  cases r with
  | table k => exact ⟨k % 3, by omega, rfl⟩
  | column k j => exact ⟨k % 3, by omega, rfl⟩

/-- Every end of a relation has a left side. -/
theorem left_end (m : Module) (r : NodeRef) (i : NodeId) (hi : nodeOf m.intoMir r = some i) :
    ∃ n, (laidOut m.intoMir).getNode i = some n ∧ ∃ p ∈ n.terminalPorts, p.orientation = .left ∧ ∃ c : Nat, c < 3 ∧ p.location.x = 50 + 380 * (c : Rat) := by
  have h := portsOf_ref m r i hi
  have hl : (sideMiddle (refRect (lineNumbers (definitions m.entries)) r) .left, Orientation.left) ∈ endsOf (lineNumbers (definitions m.entries)) r := by
    refine List.mem_map.mpr ⟨.left, ?_, rfl⟩
    cases r with
    | table k => simp [sidesOf]
    | column k j => simp only [sidesOf]; split <;> simp
  rw [← h, portsOf] at hl
  cases hn : (laidOut m.intoMir).nodes[i]? with
  | none => rw [hn] at hl; simp at hl
  | some n =>
    rw [hn] at hl
    obtain ⟨p, hp, he⟩ := List.mem_map.mp hl
    simp only [Prod.mk.injEq] at he
    obtain ⟨c, hc, hx⟩ := refRect_left (lineNumbers (definitions m.entries)) r
    refine ⟨n, hn, p, hp, he.2, c, hc, ?_⟩
    rw [he.1]
    exact hx

theorem le_flatMap_mem {α β : Type} (f : α → List β) (P : β → Bool) (k : Nat) (xs : List α) (x : α) (hx : x ∈ xs) (h : k ≤ ((f x).filter P).length) :
    k ≤ ((xs.flatMap f).filter P).length := by
  induction xs with
  | nil => cases hx
  | cons y ys ih =>
    rw [List.flatMap_cons, List.filter_append, List.length_append]
    rcases List.mem_cons.mp hx with rfl | hx
    · omega
    · have := ih hx; omega

/-- The steps needed at least, for every module. -/
theorem draw_min (q : Queue) (m : Module) (g : RouteGraph) :
    let T := (definitions m.entries).length
    (2 * T + (connections [] m.entries).length * (4 * (T / 3))) * (T + 1) ≤ (sDrawEdgePath q (laidOut m.intoMir) g).steps := by
  have hns : lineCounts m.intoMir = lineNumbers (definitions m.entries) := lineCounts_intoMir m
  have hs := shapeRects_eq (drawable_intoMir m)
  rw [hns] at hs
  have hT : (lineNumbers (definitions m.entries)).length = (definitions m.entries).length := by simp [lineNumbers]
  have hes : (laidOut m.intoMir).edges.length = (connections [] m.entries).length := by
    rw [(laidOut_edges m.intoMir).1]
    simpa using congrArg List.length (C17_relations m).1
  simp only
  have hcount : (laidOut m.intoMir).edges.length * (4 * ((definitions m.entries).length / 3)) ≤
      ((crossingJunctions (laidOut m.intoMir) (corners (lineNumbers (definitions m.entries)))).filter leftStreet).length := by
    refine le_flatMap_filter _ _ _ _ fun e he => ?_
    rw [(laidOut_edges m.intoMir).1] at he
    have hm := List.mem_map_of_mem (f := fun e : EdgeData => (some e.sourceId, some e.targetId)) he
    rw [(C17_relations m).1, List.mem_map] at hm
    obtain ⟨c, -, heq⟩ := hm
    simp only [Prod.mk.injEq] at heq
    obtain ⟨s, hs1, p, hp, ho, cp, hcp, hxp⟩ := left_end m c.1 _ heq.1
    obtain ⟨t, ht1, p', hp', ho', cp', hcp', hxp'⟩ := left_end m c.2 _ heq.2
    simp only [edgePorts, hs1, ht1]
    rw [List.flatMap_append, List.filter_append, List.length_append]
    have h1 := le_flatMap_mem (fun pt => junctionsFromTerminalPort (laidOut m.intoMir) pt (corners (lineNumbers (definitions m.entries)))) leftStreet
      _ s.terminalPorts p hp (left_port_count hs p cp hcp ho hxp)
    have h2 := le_flatMap_mem (fun pt => junctionsFromTerminalPort (laidOut m.intoMir) pt (corners (lineNumbers (definitions m.entries)))) leftStreet
      _ t.terminalPorts p' hp' (left_port_count hs p' cp' hcp' ho' hxp')
    rw [hT] at h1 h2
    omega
  have hrem := sRemoveOverlapped_min hs (corners (lineNumbers (definitions m.entries)) ++
    crossingJunctions (laidOut m.intoMir) (corners (lineNumbers (definitions m.entries))))
  rw [List.filter_append, List.length_append, hT] at hrem
  have hbuild : (sRemoveOverlapped (laidOut m.intoMir) (corners (lineNumbers (definitions m.entries)) ++
      crossingJunctions (laidOut m.intoMir) (corners (lineNumbers (definitions m.entries))))).steps ≤ (sDrawEdgePath q (laidOut m.intoMir) g).steps := by
    rw [sDrawEdgePath, andThenE_steps, sBuildRouteGraph]
    simp only [andThen_steps, sJunctionsAroundShapes_val, sCrossingJunctions_val, corners_eq hs]
    rw [andThenE_steps]
    omega
  rw [← hes]
  refine le_trans ?_ (hrem.trans hbuild)
  have hcorner := corner_left_count (lineNumbers (definitions m.entries))
  rw [hT] at hcorner
  exact Nat.mul_le_mul_right _ (Nat.add_le_add hcorner hcount)

end Seiren.StepBound
