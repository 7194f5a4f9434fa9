import Verif.Props.Picture
/-! # C81: editing one table -/

namespace Seiren
open Spec

/-- The value of an attribute that is a height in the picture is increased by `d`. -/
def Spec.moveAttr (d : Rat) : Str × AttrVal → Str × AttrVal
  | (name, .num y) => (name, .num (if name ∈ [c!"y", c!"y1", c!"y2", c!"cy"] then y + d else y))
  | a => a

/-- An element without children is moved down by `d`. -/
def Spec.moveDown (d : Rat) : Element → Element
  | .mk name attrs children text => .mk name (attrs.map (moveAttr d)) children text

theorem rowTop_agree {ns ns' : List Nat} {r : Nat} (h : ∀ i < 3 * r, ns'[i]? = ns[i]?) : rowTop ns' r = rowTop ns r := by
  induction r with
  | zero => rfl
  | succ r ih =>
    rw [rowTop, rowTop, ih (fun i hi => h i (by omega)), tallest, tallest, h _ (by omega), h _ (by omega), h _ (by omega)]

theorem rowTop_edit {ns ns' : List Nat} {k : Nat} (h : ∀ i ≠ k, ns'[i]? = ns[i]?) {r : Nat} (hr : k / 3 < r) :
    rowTop ns' r = rowTop ns r + 35 * ((tallest ns' (k / 3) : Rat) - (tallest ns (k / 3) : Rat)) := by
  induction r with
  | zero => omega
  | succ r ih =>
    rw [rowTop, rowTop]
    by_cases hk : k / 3 = r
    · rw [rowTop_agree (fun i hi => h i (by omega)), hk]; ring
    · have e : tallest ns' r = tallest ns r := by
        rw [tallest, tallest, h _ (by omega), h _ (by omega), h _ (by omega)]
      rw [ih (by omega), e]; ring

theorem picText_move (δ x y : Rat) (anchor fill font : Str) (style : List (Str × AttrVal)) (t : Str)
    (hs : style.map (moveAttr δ) = style) :
    moveDown δ (picText x y anchor fill font style t) = picText x (y + δ) anchor fill font style t := by
  simp only [picText, moveDown, List.map_append, hs]
  simp [moveAttr]
  ring

theorem picTable_move {ns ns' : List Nat} (d : EntityDefinition) (k : Nat) {δ : Rat}
    (h : rowTop ns' (k / 3) = rowTop ns (k / 3) + δ) : picTable ns' d k = (picTable ns d k).map (moveDown δ) := by
  have hcol : ∀ (x y : Rat) (f : EntityField), picColumn x (y + δ) f = (picColumn x y f).map (moveDown δ) := by
    intro x y f
    unfold picColumn
    rw [List.map_append, List.map_cons, List.map_cons, List.map_cons, List.map_nil, picText_move _ _ _ _ _ _ _ _ rfl,
      picText_move _ _ _ _ _ _ _ _ rfl]
    have hline : ∀ a b c d e f : Str × AttrVal, moveDown δ (.mk c!"line" [a, b, c, d, e, f] [] none) =
        .mk c!"line" [moveAttr δ a, moveAttr δ b, moveAttr δ c, moveAttr δ d, moveAttr δ e, moveAttr δ f] [] none := fun _ _ _ _ _ _ => rfl
    refine congrArg₂ (· ++ ·) ?_ ?_
    · rw [hline]; simp [moveAttr]
    · cases f.fieldKey with
      | none => rfl
      | some k =>
        simp only [picBadge, List.map_cons, List.map_nil]
        rw [picText_move _ _ _ _ _ _ _ _ rfl]
        simp [moveDown, moveAttr]
        ring
  unfold picTable
  simp only [h]
  rw [List.map_cons, List.map_append, List.map_flatMap]
  refine congrArg₂ List.cons ?_ (congrArg₂ (· ++ ·) ?_ ?_)
  · simp [picFrame, moveDown, moveAttr]
  · simp only [picHeader, List.map_cons, List.map_nil]
    rw [picText_move _ _ _ _ _ _ _ _ rfl]
    simp [moveDown, moveAttr]
  · refine List.flatMap_congr fun a _ => ?_
    rw [← hcol]
    congr 1
    ring

/-- **C81.** If one table of a module is changed in any way, then in the drawing the other tables of its row and all tables of
the rows above stay exactly as they are, the table keeps its corner, and all tables in rows below are moved by the same distance:
35 times the change in the number of lines of the longest table of the row. -/
theorem C81_edit {q : Queue} {QI : List Entry → Prop} (hq : q.Lawful QI) (m m' : Module) (k : Nat)
    (hlen : (definitions m'.entries).length = (definitions m.entries).length)
    (hedit : ∀ i ≠ k, (definitions m'.entries)[i]? = (definitions m.entries)[i]?) (hne : definitions m.entries ≠ [])
    (hsize : picHeight (lineNumbers (definitions m.entries)) ≤ 1000000000)
    (hsize' : picHeight (lineNumbers (definitions m'.entries)) ≤ 1000000000)
    (el el' : Element) (h : drawModule q m = .ok el) (h' : drawModule q m' = .ok el') :
    let ns := lineNumbers (definitions m.entries)
    let ns' := lineNumbers (definitions m'.entries)
    let δ : Rat := 35 * ((tallest ns' (k / 3) : Rat) - (tallest ns (k / 3) : Rat))
    ∃ relations relations', el = picture (definitions m.entries) relations ∧ el' = picture (definitions m'.entries) relations' ∧
      rowTop ns' (k / 3) = rowTop ns (k / 3) ∧ picHeight ns' = picHeight ns + δ ∧
      ∀ j ≠ k, ∀ d, (definitions m.entries)[j]? = some d →
        (j / 3 ≤ k / 3 → picTable ns' d j = picTable ns d j) ∧
        (k / 3 < j / 3 → picTable ns' d j = (picTable ns d j).map (moveDown δ)) := by
  intro ns ns' δ
  obtain ⟨rels, he, -⟩ := C58_picture hq m hne hsize el h
  obtain ⟨rels', he', -⟩ := C58_picture hq m' (by intro e; rw [e] at hlen; exact hne (List.length_eq_zero_iff.mp hlen.symm)) hsize' el' h'
  have hns : ∀ i ≠ k, ns'[i]? = ns[i]? := by
    intro i hi
    simp only [ns, ns', lineNumbers, List.getElem?_map, hedit i hi]
  have hl : ns'.length = ns.length := by simp [ns, ns', lineNumbers, hlen]
  have htop : rowTop ns' (k / 3) = rowTop ns (k / 3) := rowTop_agree fun i hi => hns i (by omega)
  refine ⟨_, _, he, he', htop, ?_, ?_⟩
  · unfold picHeight
    rw [hl]
    by_cases hk : k / 3 < (ns.length - 1) / 3
    · have e : tallest ns' ((ns.length - 1) / 3) = tallest ns ((ns.length - 1) / 3) := by
        rw [tallest, tallest, hns _ (by omega), hns _ (by omega), hns _ (by omega)]
      rw [rowTop_edit hns hk, e]; ring
    · have htop' : rowTop ns' ((ns.length - 1) / 3) = rowTop ns ((ns.length - 1) / 3) := rowTop_agree fun i hi => hns i (by omega)
      rw [htop']
      by_cases hk' : k / 3 = (ns.length - 1) / 3
      · simp only [δ, hk']; ring
      · have heq : ns' = ns := by
          apply List.ext_getElem?
          intro i
          by_cases hi : i = k
          · rw [List.getElem?_eq_none (by omega), List.getElem?_eq_none (by omega)]
          · exact hns i hi
        simp only [δ, heq]; ring
  · intro j hj d hd
    refine ⟨fun hle => ?_, fun hlt => picTable_move d j (rowTop_edit hns hlt)⟩
    have : rowTop ns' (j / 3) = rowTop ns (j / 3) := rowTop_agree fun i hi => hns i (by omega)
    simp only [picTable, this]

/-- **C81**, for one more column: the rows below are moved by 35 if the table was a longest one of its row, and not at all
otherwise. -/
theorem C81_column (ds ds' : List EntityDefinition) (k : Nat) (d d' : EntityDefinition) (hd : ds[k]? = some d) (hd' : ds'[k]? = some d')
    (hedit : ∀ i ≠ k, ds'[i]? = ds[i]?) (hcol : d'.fields.length = d.fields.length + 1) :
    tallest (lineNumbers ds') (k / 3) = tallest (lineNumbers ds) (k / 3) +
      if tallest (lineNumbers ds) (k / 3) = d.fields.length + 1 then 1 else 0 := by
  have hns : ∀ i ≠ k, (lineNumbers ds')[i]? = (lineNumbers ds)[i]? := by
    intro i hi
    simp only [lineNumbers, List.getElem?_map, hedit i hi]
  have hk : (lineNumbers ds)[k]? = some (d.fields.length + 1) := by simp [lineNumbers, hd]
  have hk' : (lineNumbers ds')[k]? = some (d.fields.length + 1 + 1) := by simp [lineNumbers, hd', hcol]
  generalize lineNumbers ds' = ns' at *
  generalize lineNumbers ds = ns at *
  have hc : k = 3 * (k / 3) ∨ k = 3 * (k / 3) + 1 ∨ k = 3 * (k / 3) + 2 := by omega
  generalize k / 3 = r at *
  unfold tallest
  rcases hc with rfl | rfl | rfl
  · rw [hns (3 * r + 1) (by omega), hns (3 * r + 2) (by omega), hk, hk']
    simp only [Option.getD_some]
    split <;> omega
  · rw [hns (3 * r) (by omega), hns (3 * r + 2) (by omega), hk, hk']
    simp only [Option.getD_some]
    split <;> omega
  · rw [hns (3 * r) (by omega), hns (3 * r + 1) (by omega), hk, hk']
    simp only [Option.getD_some]
    split <;> omega

/-! Modules meeting the hypotheses: a column is added to the first of four tables; it was a longest one of its row. -/
set_option maxRecDepth 100000 in
example :
    let m : Module := ⟨none, [.definition ⟨c!"a", []⟩, .definition ⟨c!"b", []⟩, .definition ⟨c!"c", []⟩, .definition ⟨c!"d", []⟩]⟩
    let m' : Module := ⟨none, [.definition ⟨c!"a", [⟨c!"x", .int, none⟩]⟩, .definition ⟨c!"b", []⟩, .definition ⟨c!"c", []⟩, .definition ⟨c!"d", []⟩]⟩
    (drawModule BinHeap.queue m).toOption.isSome = true ∧ (drawModule BinHeap.queue m').toOption.isSome = true ∧
    tallest (lineNumbers (definitions m.entries)) 0 = 1 ∧ tallest (lineNumbers (definitions m'.entries)) 0 = 2 ∧
    rowTop (lineNumbers (definitions m.entries)) 1 = 165 ∧ rowTop (lineNumbers (definitions m'.entries)) 1 = 200 := by decide +kernel

end Seiren
