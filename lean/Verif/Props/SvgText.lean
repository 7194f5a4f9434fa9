import Verif.Proofs.SvgText
import Verif.Props.Picture
import Verif.Props.Cli
/-! # C64, C65: the text of the SVG -/

namespace Seiren
open Spec

/-- Text that may stand in XML as it is: characters that XML allows, neither `<` nor `&` nor a carriage return (which a reader
replaces), and not the sequence `]]>`. -/
def Spec.PlainText (t : Str) : Prop :=
  (∀ c ∈ t, isXmlChar c = true ∧ c ≠ '<' ∧ c ≠ '&' ∧ c ≠ '\r') ∧ ¬ c!"]]>" <:+: t

/-- The names of tables and columns. -/
def Spec.shownNames (ds : List EntityDefinition) : List Str := ds.flatMap fun d => d.name :: d.fields.map (·.name)

/-- The picture of a module as an SVG document: with the attribute that says so. -/
def Spec.svgDocument : Element → Element
  | .mk name attrs children text => .mk name ((c!"xmlns", .str c!"http://www.w3.org/2000/svg") :: attrs) children text

/-! ## Parts of the picture -/

/-- Whether a text is a name of XML. -/
def nameOk : Str → Bool
  | [] => false
  | c :: s => isNameStart c && (c :: s).all isNameChar

theorem nameOk_spec {n : Str} (h : nameOk n = true) : XmlName n := by
  cases n with
  | nil => cases h
  | cons c s =>
    rw [nameOk, Bool.and_eq_true] at h
    exact ⟨c, s, rfl, h.1, List.all_eq_true.mp h.2⟩

theorem numChar_safe {c : Char} (h : numChar c = true) : safeChar c = true := by
  simp only [numChar, Bool.or_eq_true, beq_iff_eq] at h
  rcases h with (h | rfl) | rfl
  · simp only [Char.isDigit, Bool.and_eq_true, decide_eq_true_eq] at h
    have h1 : 48 ≤ c.toNat := h.1
    have h2 : c.toNat ≤ 57 := h.2
    have hne : ∀ d : Char, d.toNat < 48 ∨ 57 < d.toNat → c ≠ d := by rintro d hd rfl; omega
    simp only [safeChar, Bool.and_eq_true, decide_eq_true_eq, bne_iff_ne, ne_eq]
    exact ⟨⟨⟨⟨⟨⟨by omega, by omega⟩, hne _ (by decide)⟩, hne _ (by decide)⟩, hne _ (by decide)⟩, hne _ (by decide)⟩, hne _ (by decide)⟩
  · decide
  · decide

theorem goodStr {s : Str} (h : s.all safeChar = true) : GoodValue (.str s) := ⟨List.all_eq_true.mp h, rfl⟩

theorem goodNum {x : Rat} (h : Half x) : GoodValue (.num x) :=
  ⟨fun c hc => numChar_safe (displayNum_chars x c hc), decimal_displayNum h⟩

theorem joinWith_mem {sep : Str} {ws : List Str} {c : Char} (h : c ∈ joinWith sep ws) : c ∈ sep ∨ ∃ w ∈ ws, c ∈ w := by
  match ws with
  | [] => simp [joinWith] at h
  | [w] => exact Or.inr ⟨w, by simp, h⟩
  | w :: v :: rest =>
    rw [joinWith, List.mem_append, List.mem_append] at h
    rcases h with (h | h) | h
    · exact Or.inr ⟨w, by simp, h⟩
    · exact Or.inl h
    · rcases joinWith_mem h with h | ⟨u, hu, h⟩
      · exact Or.inl h
      · exact Or.inr ⟨u, List.mem_cons_of_mem _ hu, h⟩

theorem goodNums {xs : List Rat} (h : ∀ x ∈ xs, Half x) : GoodValue (.nums xs) := by
  refine ⟨?_, numbers_nums h⟩
  intro c hc
  rcases joinWith_mem hc with hc | ⟨w, hw, hc⟩
  · simp at hc; rcases hc with rfl | rfl <;> decide
  · obtain ⟨x, -, rfl⟩ := List.mem_map.mp hw
    exact numChar_safe (displayNum_chars x c hc)

theorem goodPath {cs : List PathCommand} (h : ∀ c ∈ cs, ∀ p ∈ pointsOf c, Half p.x ∧ Half p.y) : GoodValue (.path cs) := by
  refine ⟨?_, pathWords_path (fun c hc p hp => h c hc p (by cases c <;> exact hp))⟩
  intro c hc
  rcases joinWith_mem hc with hc | ⟨w, hw, hc⟩
  · simp at hc; subst hc; decide
  · obtain ⟨x, -, rfl⟩ := List.mem_map.mp hw
    cases x <;> simp only [PathCommand.display, List.mem_append, List.mem_singleton] at hc
    · rcases hc with ((rfl | hc) | rfl) | hc
      · decide
      · exact numChar_safe (displayNum_chars _ c hc)
      · decide
      · exact numChar_safe (displayNum_chars _ c hc)
    · rcases hc with ((rfl | hc) | rfl) | hc
      · decide
      · exact numChar_safe (displayNum_chars _ c hc)
      · decide
      · exact numChar_safe (displayNum_chars _ c hc)
    · rcases hc with ((((((rfl | hc) | rfl) | hc) | rfl) | hc) | rfl) | hc
      · decide
      · exact numChar_safe (displayNum_chars _ c hc)
      · decide
      · exact numChar_safe (displayNum_chars _ c hc)
      · decide
      · exact numChar_safe (displayNum_chars _ c hc)
      · decide
      · exact numChar_safe (displayNum_chars _ c hc)

theorem goodElements_iff (G : Str → Prop) (es : List Element) : GoodElements G es ↔ ∀ e ∈ es, GoodElement G e := by
  induction es with
  | nil => simp [GoodElements]
  | cons e es ih => simp [GoodElements, ih]

theorem goodLeaf {G : Str → Prop} {name : Str} {attrs : List (Str × AttrVal)} {text : Option Str} (hn : nameOk name = true)
    (hk : (attrs.map (·.1)).all nameOk = true ∧ (attrs.map (·.1)).Nodup) (hv : ∀ v ∈ attrs.map (·.2), GoodValue v)
    (ht : ∀ t ∈ text, G t) : GoodElement G (.mk name attrs [] text) := by
  refine ⟨nameOk_spec hn, hk.2, ?_, trivial, fun t h => ⟨rfl, ht t h⟩⟩
  intro a ha
  exact ⟨nameOk_spec (List.all_eq_true.mp hk.1 _ (List.mem_map.mpr ⟨a, ha, rfl⟩)), hv _ (List.mem_map.mpr ⟨a, ha, rfl⟩)⟩

theorem half_lit (n : Int) (x : Rat) (h : x = (n : Rat) / 2) : Half x := ⟨n, h⟩

theorem tableX_half (k : Nat) : Half (tableX k) := by
  unfold tableX
  exact (half_lit 100 50 (by norm_num)).add ⟨760 * ((k % 3 : Nat) : Int), by rw [Int.cast_mul, Int.cast_natCast]; push_cast; ring⟩

theorem rowTop_half (ns : List Nat) (k : Nat) : Half (rowTop ns k) := by
  obtain ⟨z, hz⟩ := rowTop_five ns k
  rw [hz]
  exact ⟨10 * z, by push_cast; ring⟩

section
variable {G : Str → Prop}

theorem goodPicText {x y : Rat} (hx : Half x) (hy : Half y) {anchor fill font : Str} (h1 : anchor.all safeChar = true)
    (h2 : fill.all safeChar = true) (h3 : font.all safeChar = true) {style : List (Str × AttrVal)} {text : Str}
    (hk : ((c!"x" :: c!"y" :: c!"dominant-baseline" :: c!"text-anchor" :: c!"fill" :: c!"font-family" :: style.map (·.1)).all nameOk = true) ∧
      (c!"x" :: c!"y" :: c!"dominant-baseline" :: c!"text-anchor" :: c!"fill" :: c!"font-family" :: style.map (·.1)).Nodup)
    (hv : ∀ v ∈ style.map (·.2), GoodValue v) (ht : G text) :
    GoodElement G (picText x y anchor fill font style text) := by
  refine goodLeaf (by decide) hk ?_ (by simpa using ht)
  intro v hv'
  simp only [List.map_append, List.map_cons, List.map_nil, List.mem_append, List.mem_cons, List.not_mem_nil, or_false] at hv'
  rcases hv' with (rfl | rfl | rfl | rfl | rfl | rfl) | hv'
  · exact goodNum hx
  · exact goodNum (hy.add ⟨35, by norm_num⟩)
  · exact goodStr (by decide)
  · exact goodStr h1
  · exact goodStr h2
  · exact goodStr h3
  · exact hv v hv'

theorem goodFrame {x y : Rat} (hx : Half x) (hy : Half y) (n : Nat) {colors : List (Str × AttrVal)}
    (hk : ((c!"x" :: c!"y" :: c!"width" :: c!"height" :: c!"rx" :: c!"ry" :: colors.map (·.1)).all nameOk = true) ∧
      (c!"x" :: c!"y" :: c!"width" :: c!"height" :: c!"rx" :: c!"ry" :: colors.map (·.1)).Nodup)
    (hv : ∀ v ∈ colors.map (·.2), GoodValue v) : GoodElement G (picFrame x y n colors) := by
  refine goodLeaf (by decide) hk ?_ (by simp)
  intro v hv'
  simp only [List.map_append, List.map_cons, List.map_nil, List.mem_append, List.mem_cons, List.not_mem_nil, or_false] at hv'
  rcases hv' with (rfl | rfl | rfl | rfl | rfl | rfl) | hv'
  · exact goodNum hx
  · exact goodNum hy
  · exact goodNum ⟨600, by norm_num⟩
  · exact goodNum ⟨70 * n, by push_cast; ring⟩
  · exact goodNum ⟨12, by norm_num⟩
  · exact goodNum ⟨12, by norm_num⟩
  · exact hv v hv'

theorem clipName_safe (k : Nat) : (clipName k).all safeChar = true := by
  rw [clipName, List.all_append, Bool.and_eq_true]
  refine ⟨by decide, List.all_eq_true.mpr fun c hc => numChar_safe ?_⟩
  simp [numChar, Nat.isDigit_of_mem_toDigits (by decide : 0 < 10) (by decide) hc]

theorem goodHeader (k : Nat) {x y : Rat} (hx : Half x) (hy : Half y) {name : Str} (ht : G name) :
    ∀ e ∈ picHeader k x y name, GoodElement G e := by
  intro e he
  simp only [picHeader, List.mem_cons, List.not_mem_nil, or_false] at he
  rcases he with rfl | rfl
  · refine goodLeaf (by decide) (by constructor <;> simp [nameOk, isNameStart, isNameChar]) ?_ (by simp)
    intro v hv
    simp only [List.map_cons, List.map_nil, List.mem_cons, List.not_mem_nil, or_false] at hv
    rcases hv with rfl | rfl | rfl | rfl | rfl | rfl
    · exact goodNum hx
    · exact goodNum hy
    · exact goodNum ⟨600, by norm_num⟩
    · exact goodNum ⟨70, by norm_num⟩
    · exact goodStr (by decide)
    · refine goodStr ?_
      rw [List.all_append, List.all_append, clipName_safe]
      decide
  · exact goodPicText (hx.add ⟨24, by norm_num⟩) hy (by decide) (by decide) (by decide) (by decide)
      (by simp only [List.map_cons, List.map_nil, List.mem_singleton]; rintro v rfl; exact goodStr (by decide)) ht

theorem goodBadge {x y : Rat} (hx : Half x) (hy : Half y) (k : EntityFieldKey) (ht : G (keyText k)) :
    ∀ e ∈ picBadge x y k, GoodElement G e := by
  intro e he
  simp only [picBadge, List.mem_cons, List.not_mem_nil, or_false] at he
  rcases he with rfl | rfl
  · refine goodLeaf (by decide) (by constructor <;> simp [nameOk, isNameStart, isNameChar]) ?_ (by simp)
    intro v hv
    simp only [List.map_cons, List.map_nil, List.mem_cons, List.not_mem_nil, or_false] at hv
    rcases hv with rfl | rfl | rfl | rfl
    · exact goodNum (hx.add ⟨553, by norm_num⟩)
    · exact goodNum (hy.add ⟨35, by norm_num⟩)
    · exact goodNum ⟨23, by norm_num⟩
    · exact goodStr (by cases k <;> decide)
  · exact goodPicText (hx.add ⟨553, by norm_num⟩) hy (by decide) (by cases k <;> decide) (by decide) (by decide)
      (by simp only [List.map_cons, List.map_nil, List.mem_singleton]; rintro v rfl; exact goodStr (by decide)) ht

theorem goodColumn {x y : Rat} (hx : Half x) (hy : Half y) (f : EntityField) (ht : G f.name)
    (htt : G (typeText f.fieldType)) (hkt : ∀ k, G (keyText k)) :
    ∀ e ∈ picColumn x y f, GoodElement G e := by
  intro e he
  simp only [picColumn, List.mem_append, List.mem_cons, List.not_mem_nil, or_false] at he
  rcases he with (rfl | rfl | rfl) | he
  · refine goodLeaf (by decide) (by constructor <;> simp [nameOk, isNameStart, isNameChar]) ?_ (by simp)
    intro v hv
    simp only [List.map_cons, List.map_nil, List.mem_cons, List.not_mem_nil, or_false] at hv
    rcases hv with rfl | rfl | rfl | rfl | rfl | rfl
    · exact goodNum hx
    · exact goodNum (hx.add ⟨600, by norm_num⟩)
    · exact goodNum hy
    · exact goodNum hy
    · exact goodStr (by decide)
    · exact goodNum ⟨2, by norm_num⟩
  · exact goodPicText (hx.add ⟨24, by norm_num⟩) hy (by decide) (by decide) (by decide) (by decide)
      (by simp only [List.map_cons, List.map_nil, List.mem_singleton]; rintro v rfl; exact goodStr (by decide)) ht
  · refine goodPicText (hx.add ⟨480, by norm_num⟩) hy (by decide) ?_ (by decide) (by decide) ?_ htt
    · cases f.fieldType <;> decide
    · simp only [List.map_cons, List.map_nil, List.mem_cons, List.not_mem_nil, or_false]
      rintro v (rfl | rfl) <;> exact goodStr (by decide)
  · cases hk : f.fieldKey with
    | none => rw [hk] at he; simp at he
    | some k =>
      rw [hk] at he
      exact goodBadge hx hy k (hkt k) e he

theorem goodTable (ns : List Nat) (d : EntityDefinition) (k : Nat) (ht : G d.name)
    (hf : ∀ f ∈ d.fields, G f.name) (htt : ∀ t, G (typeText t)) (hkt : ∀ k, G (keyText k)) :
    ∀ e ∈ picTable ns d k, GoodElement G e := by
  intro e he
  have hx := tableX_half k
  have hy := rowTop_half ns (k / 3)
  simp only [picTable, List.mem_cons, List.mem_append, List.mem_flatMap] at he
  rcases he with rfl | he | ⟨⟨f, j⟩, hfj, he⟩
  · refine goodFrame hx hy _ (by constructor <;> simp [nameOk, isNameStart, isNameChar]) ?_
    simp only [List.map_cons, List.map_nil, List.mem_cons, List.not_mem_nil, or_false]
    rintro v (rfl | rfl) <;> exact goodStr (by decide)
  · exact goodHeader k hx hy ht e he
  · have hfm := List.mem_of_getElem? (List.mem_zipIdx_iff_getElem?.mp hfj)
    exact goodColumn hx (hy.add ⟨70 * (j + 1), by push_cast; ring⟩) f (hf f hfm) (htt _) hkt e he

theorem goodClip (ns : List Nat) (d : EntityDefinition) (k : Nat) : GoodElement G (picClip ns d k) := by
  refine ⟨nameOk_spec (by decide), by simp, ?_, ⟨?_, trivial⟩, by simp⟩
  · simp only [List.mem_singleton]
    rintro a rfl
    exact ⟨nameOk_spec (n := c!"id") (by decide), goodStr (clipName_safe k)⟩
  · exact goodFrame (tableX_half k) (rowTop_half ns _) _ (by constructor <;> decide) (by simp)

theorem goodEnd {p : Point} (hx : Half p.x) (hy : Half p.y) : GoodElement G (picEnd p) := by
  refine goodLeaf (by decide) (by constructor <;> simp [nameOk, isNameStart, isNameChar]) ?_ (by simp)
  intro v hv
  simp only [List.map_cons, List.map_nil, List.mem_cons, List.not_mem_nil, or_false] at hv
  rcases hv with rfl | rfl | rfl | rfl | rfl | rfl
  · exact goodNum hx
  · exact goodNum hy
  · exact goodNum ⟨8, by norm_num⟩
  · exact goodStr (by decide)
  · exact goodNum ⟨3, by norm_num⟩
  · exact goodStr (by decide)

theorem OnGrid.half {p : Point} (h : OnGrid p) : Half p.x ∧ Half p.y := by
  obtain ⟨⟨a, ha⟩, b, hb⟩ := h
  exact ⟨⟨20 * a, by rw [ha]; push_cast; ring⟩, ⟨5 * b, by rw [hb]; push_cast; ring⟩⟩

theorem goodRelation {ns : List Nat} {rs : List (NodeRef × NodeRef)} {c : NodeRef × NodeRef} {els : List Element} (h : ShowsRelation ns rs c els) :
    ∀ e ∈ els, GoodElement G e := by
  obtain ⟨ps, cs, a, b, o, o', rfl, ha, hb, -, -, -, -, -, hgrid, -, a', b', pieces, ha', hb', rfl, hlen, hpieces⟩ := h
  rw [ha] at ha'
  cases ha'
  rw [hb] at hb'
  cases hb'
  have hah := OnGrid.half (hgrid a (List.mem_of_head? ha))
  have hbh := OnGrid.half (hgrid b (List.mem_of_getLast? hb))
  have hpath : ∀ c ∈ PathCommand.moveTo a :: pieces.flatten ++ [.lineTo b], ∀ p ∈ pointsOf c, Half p.x ∧ Half p.y := by
    intro c hc p hp
    simp only [List.cons_append, List.mem_cons, List.mem_append, List.mem_flatten, List.not_mem_nil, or_false] at hc
    rcases hc with rfl | ⟨l, hl, hc⟩ | rfl
    · simp only [pointsOf, List.mem_singleton] at hp; subst hp; exact hah
    · obtain ⟨k, hk⟩ := List.getElem?_of_mem hl
      have hkl := (List.getElem?_eq_some_iff.mp hk).1
      obtain ⟨l', hl', d, d', -, -, -, h1, h2⟩ := hpieces k _ _ _ (List.getElem?_eq_getElem (by omega))
        (List.getElem?_eq_getElem (by omega)) (List.getElem?_eq_getElem (by omega))
      rw [hk] at hl'
      cases hl'
      have hy := OnGrid.half (hgrid _ (List.getElem_mem (show k + 1 < ps.length by omega)))
      generalize ps[k + 1] = y at *
      have hstep : ∀ d : Orientation, Half (step d y 6).x ∧ Half (step d y 6).y := by
        intro d
        have h6 : Half 6 := ⟨12, by norm_num⟩
        cases d <;> simp only [step]
        · exact ⟨hy.1, hy.2.sub h6⟩
        · exact ⟨hy.1, hy.2.add h6⟩
        · exact ⟨hy.1.sub h6, hy.2⟩
        · exact ⟨hy.1.add h6, hy.2⟩
      by_cases hd : d = d'
      · rw [h1 hd] at hc
        simp only [List.mem_singleton] at hc
        subst hc
        simp only [pointsOf, List.mem_singleton] at hp
        subst hp
        exact hy
      · rw [h2 hd] at hc
        simp only [List.mem_cons, List.not_mem_nil, or_false] at hc
        rcases hc with rfl | rfl
        · simp only [pointsOf, List.mem_singleton] at hp
          subst hp
          exact hstep _
        · simp only [pointsOf, List.mem_cons, List.not_mem_nil, or_false] at hp
          rcases hp with rfl | rfl
          · exact hy
          · exact hstep _
    · simp only [pointsOf, List.mem_singleton] at hp; subst hp; exact hbh
  intro e he
  simp only [picRelation, List.mem_cons, List.not_mem_nil, or_false] at he
  rcases he with rfl | rfl | rfl
  · refine goodLeaf (by decide) (by constructor <;> simp [nameOk, isNameStart, isNameChar]) ?_ (by simp)
    intro v hv
    simp only [List.map_cons, List.map_nil, List.mem_cons, List.not_mem_nil, or_false] at hv
    rcases hv with rfl | rfl | rfl | rfl
    · exact goodStr (by decide)
    · exact goodNum ⟨3, by norm_num⟩
    · exact goodStr (by decide)
    · exact goodPath hpath
  · exact goodEnd hah.1 hah.2
  · exact goodEnd hbh.1 hbh.2

theorem goodPicture (ds : List EntityDefinition) (rs cs : List (NodeRef × NodeRef)) (relations : List (List Element))
    (h : List.Forall₂ (ShowsRelation (lineNumbers ds) rs) cs relations) (hn : ∀ t ∈ shownNames ds, G t)
    (htt : ∀ t, G (typeText t)) (hkt : ∀ k, G (keyText k)) :
    GoodElement G (withNamespace (picture ds relations.flatten)) := by
  refine ⟨nameOk_spec (by decide), by simp, ?_, ?_, by simp⟩
  · intro a ha
    simp only [List.mem_cons, List.not_mem_nil, or_false] at ha
    rcases ha with rfl | rfl
    · exact ⟨nameOk_spec (by decide), goodStr (by decide)⟩
    · refine ⟨nameOk_spec (n := c!"viewBox") (by decide), goodNums ?_⟩
      simp only [List.mem_cons, List.not_mem_nil, or_false]
      rintro x (rfl | rfl | rfl | rfl)
      · exact ⟨0, by norm_num⟩
      · exact ⟨0, by norm_num⟩
      · exact ⟨2320, by norm_num⟩
      · unfold picHeight
        exact ((rowTop_half _ _).add ⟨70 * (tallest (lineNumbers ds) (((lineNumbers ds).length - 1) / 3) : Nat), by push_cast; ring⟩).add
          ⟨100, by norm_num⟩
  · rw [goodElements_iff]
    intro e he
    simp only [List.cons_append, List.mem_cons, List.mem_append, List.mem_flatMap, List.mem_flatten] at he
    rcases he with rfl | rfl | ⟨⟨d, k⟩, hdk, he⟩ | ⟨els, hels, he⟩
    · refine goodLeaf (by decide) (by constructor <;> decide) ?_ (by simp)
      simp only [List.map_cons, List.map_nil, List.mem_cons, List.not_mem_nil, or_false]
      rintro v (rfl | rfl | rfl) <;> exact goodStr (by decide)
    · refine ⟨nameOk_spec (by decide), by simp, by simp, ?_, by simp⟩
      rw [goodElements_iff]
      intro e he
      obtain ⟨⟨d, k⟩, -, rfl⟩ := List.mem_map.mp he
      exact goodClip _ d k
    · have hd := List.mem_of_getElem? (List.mem_zipIdx_iff_getElem?.mp hdk)
      refine goodTable _ d k (hn _ (List.mem_flatMap.mpr ⟨d, hd, by simp⟩)) ?_ htt hkt e he
      intro f hf
      exact hn _ (List.mem_flatMap.mpr ⟨d, hd, by simp; exact Or.inr ⟨f, hf, rfl⟩⟩)
    · obtain ⟨i, hi⟩ := List.getElem?_of_mem hels
      obtain ⟨hl, hi⟩ := List.getElem?_eq_some_iff.mp hi
      have hlen := h.length_eq
      have := (List.forall₂_iff_get.mp h).2 i (by omega) hl
      rw [List.get_eq_getElem, List.get_eq_getElem, hi] at this
      exact goodRelation this e he

end

/-! ## Texts -/

theorem decode_plain {t : Str} (h : PlainText t) : decode (t ++ c!"\n") = some (t ++ c!"\n") := by
  induction t with
  | nil => decide
  | cons c t ih =>
    obtain ⟨h1, h2⟩ := h
    obtain ⟨a, b, c', d⟩ := h1 c (by simp)
    have ih := ih ⟨fun x hx => h1 x (by simp [hx]), fun hi => h2 (hi.trans (List.suffix_cons c t).isInfix)⟩
    rw [List.cons_append, decode_cons c' b d a, ih]
    · rfl
    · rintro u rfl e
      apply h2
      match t, e with
      | x :: y :: t, e =>
        simp only [List.cons_append, List.cons.injEq] at e
        obtain ⟨rfl, rfl, -⟩ := e
        exact ⟨[], t, rfl⟩
      | [x], e => simp at e
      | [], e => simp at e

theorem decode_newline (s : Str) : decode ('\n' :: s) = (decode s).map ('\n' :: ·) :=
  decode_cons (by decide) (by decide) (by decide) (by decide) (fun _ e => absurd e (by decide))

theorem goodText_plain {t : Str} (h : PlainText t) : GoodText id t := by
  refine ⟨fun c hc => (h.1 c hc).2.1, ?_⟩
  simp only [id, List.cons_append, List.nil_append, decode_newline, decode_plain h, Option.map_some]

/-- Text with the three special characters replaced by entities. -/
def Spec.xmlEscape (t : Str) : Str :=
  t.flatMap fun c => if c = '<' then c!"&lt;" else if c = '>' then c!"&gt;" else if c = '&' then c!"&amp;" else [c]

theorem decode_escape {t : Str} (h : ∀ c ∈ t, isXmlChar c = true ∧ c ≠ '\r') : decode (xmlEscape t ++ c!"\n") = some (t ++ c!"\n") := by
  induction t with
  | nil => decide
  | cons c t ih =>
    have ih := ih fun x hx => h x (by simp [hx])
    obtain ⟨h1, h2⟩ := h c (by simp)
    have e : xmlEscape (c :: t) = (if c = '<' then c!"&lt;" else if c = '>' then c!"&gt;" else if c = '&' then c!"&amp;" else [c]) ++ xmlEscape t :=
      List.flatMap_cons
    rw [e]
    split
    next hc => subst hc; simp only [List.cons_append, List.nil_append, decode, ih, Option.map_some]
    next hc1 =>
      split
      next hc => subst hc; simp only [List.cons_append, List.nil_append, decode, ih, Option.map_some]
      next hc2 =>
        split
        next hc => subst hc; simp only [List.cons_append, List.nil_append, decode, ih, Option.map_some]
        next hc3 =>
          rw [List.append_assoc, List.singleton_append, decode_cons hc3 hc1 h2 h1, ih]
          · rfl
          · rintro u - e'
            have hno : ∀ (s : Str), '>' ∉ xmlEscape s := by
              intro s hs
              obtain ⟨d, -, hd⟩ := List.mem_flatMap.mp hs
              split at hd
              · simp at hd
              · split at hd
                · simp at hd
                · split at hd
                  · simp at hd
                  · simp at hd; exact absurd hd.symm ‹_›
            have hm : '>' ∈ xmlEscape t ++ c!"\n" := by rw [e']; simp
            rcases List.mem_append.mp hm with hm | hm
            · exact hno t hm
            · simp at hm

theorem goodText_escape {t : Str} (h : ∀ c ∈ t, isXmlChar c = true ∧ c ≠ '\r') : GoodText xmlEscape t := by
  refine ⟨?_, ?_⟩
  · rintro c hc rfl
    obtain ⟨d, -, hd⟩ := List.mem_flatMap.mp hc
    split at hd
    · simp at hd
    · split at hd
      · simp at hd
      · split at hd
        · simp at hd
        · simp at hd; exact absurd hd.symm ‹_›
  · simp only [List.cons_append, List.nil_append, decode_newline, decode_escape h, Option.map_some]

/-- Whether a text is plain, to be computed. -/
def plainOk (t : Str) : Bool := t.all fun c => isXmlChar c && c != '<' && c != '&' && c != '\r' && c != ']'

theorem plainOk_spec {t : Str} (h : plainOk t = true) : PlainText t := by
  have h := List.all_eq_true.mp h
  simp only [Bool.and_eq_true, bne_iff_ne, ne_eq] at h
  refine ⟨fun c hc => ⟨(h c hc).1.1.1.1, (h c hc).1.1.1.2, (h c hc).1.1.2, (h c hc).1.2⟩, ?_⟩
  intro hi
  exact (h ']' (hi.subset (by simp))).2 rfl

/-! ## C64 -/

/-- The general form of C64: the text is read back if every name is, as text of an element. -/
theorem svgText_shows {q : Queue} {QI : List Entry → Prop} (hq : q.Lawful QI) (m : Module) (hne : definitions m.entries ≠ [])
    (hsize : picHeight (lineNumbers (definitions m.entries)) ≤ 1000000000) (el : Element) (h : drawModule q m = .ok el) (esc : Str → Str)
    (hn : ∀ t ∈ shownNames (definitions m.entries), GoodText esc t) (htt : ∀ t, GoodText esc (typeText t))
    (hkt : ∀ k, GoodText esc (keyText k)) :
    ∃ (x : Xml) (relations : List (List Element)), readXml (svgText esc el) = some x ∧
      Shows (svgDocument (picture (definitions m.entries) relations.flatten)) x ∧
      List.Forall₂ (ShowsRelation (lineNumbers (definitions m.entries)) (connections [] m.entries)) (connections [] m.entries) relations := by
  obtain ⟨relations, rfl, hrel⟩ := C58_picture hq m hne hsize el h
  obtain ⟨x, h1, h2⟩ := readXml_toText esc _ (goodPicture _ _ _ _ hrel hn htt hkt)
  exact ⟨x, relations, h1, h2, hrel⟩

/-- **C64.** If the names of tables and columns are plain text, then the text written for a drawn module is well-formed XML,
and it says exactly what the picture of the module is: the tree that is read has the elements of the picture, in order, with
their attributes and texts, and the numbers that are read in the attributes are exactly those of the picture. -/
theorem C64_svg_text {q : Queue} {QI : List Entry → Prop} (hq : q.Lawful QI) (m : Module) (hne : definitions m.entries ≠ [])
    (hsize : picHeight (lineNumbers (definitions m.entries)) ≤ 1000000000) (el : Element) (h : drawModule q m = .ok el)
    (hn : ∀ t ∈ shownNames (definitions m.entries), PlainText t) :
    ∃ (x : Xml) (relations : List (List Element)), readXml (svgText id el) = some x ∧
      Shows (svgDocument (picture (definitions m.entries) relations.flatten)) x ∧
      List.Forall₂ (ShowsRelation (lineNumbers (definitions m.entries)) (connections [] m.entries)) (connections [] m.entries) relations :=
  svgText_shows hq m hne hsize el h id (fun t ht => goodText_plain (hn t ht))
    (fun t => goodText_plain (plainOk_spec (by cases t <;> decide))) (fun k => goodText_plain (plainOk_spec (by cases k <;> decide)))

/-- **C64**, if text were escaped: then any names will do that consist of characters XML allows, except that a carriage
return is not read back. -/
theorem C64_svg_text_escaped {q : Queue} {QI : List Entry → Prop} (hq : q.Lawful QI) (m : Module) (hne : definitions m.entries ≠ [])
    (hsize : picHeight (lineNumbers (definitions m.entries)) ≤ 1000000000) (el : Element) (h : drawModule q m = .ok el)
    (hn : ∀ t ∈ shownNames (definitions m.entries), ∀ c ∈ t, isXmlChar c = true ∧ c ≠ '\r') :
    ∃ (x : Xml) (relations : List (List Element)), readXml (svgText xmlEscape el) = some x ∧
      Shows (svgDocument (picture (definitions m.entries) relations.flatten)) x ∧
      List.Forall₂ (ShowsRelation (lineNumbers (definitions m.entries)) (connections [] m.entries)) (connections [] m.entries) relations :=
  svgText_shows hq m hne hsize el h xmlEscape (fun t ht => goodText_escape (hn t ht))
    (fun t => goodText_escape (by cases t <;> decide)) (fun k => goodText_escape (by cases k <;> decide))

/-! A module meeting the hypotheses: three tables, drawn with a relation. -/
set_option maxRecDepth 100000 in
example : (shownNames (definitions threeTables.entries)).all plainOk = true ∧
    (drawModule BinHeap.queue threeTables).toOption.isSome = true ∧ (connections [] threeTables.entries).length = 1 := by
  decide +kernel

/-! ## C65 -/

theorem scan_words {pos : Nat} {cs : Str} {ts : List (Token × Span)} {errs : List LexError} (h : Scan pos cs ts errs)
    (hq : '`' ∉ cs) : ∀ s, Token.ident s ∈ ts.map Prod.fst → IsWord s := by
  have hlex : ∀ {s w : Str} {e : Nat}, Lexeme (.ident s) w e → '`' ∉ w → IsWord s := by
    intro s w e hl hw
    cases hl with
    | keyword h => simp [keywords] at h
    | word h _ => exact h
    | quoted h => simp at hw
  induction h with
  | stop _ _ _ => simp
  | token hg hw h ih =>
    simp only [List.mem_append, not_or] at hq
    intro s hs
    rcases List.mem_cons.mp hs with he | hs
    · simp only at he
      subst he
      exact hlex hw.1 hq.2.1
    · exact ih hq.2.2 s hs
  | skip hg ht hx hu hw h ih =>
    simp only [List.mem_append, not_or] at hq
    intro s hs
    rcases List.mem_cons.mp hs with he | hs
    · simp only at he
      subst he
      exact hlex hw.1 hq.2.2.1
    · exact ih hq.2.2.2 s hs

theorem more_mem {α : Type} {D : Dialect} {G : α → List Token → Prop} {as : List α} {w : List Token} (h : More D G as w) (a : α)
    (ha : a ∈ as) : ∃ v, G a v ∧ ∀ t ∈ v, t ∈ w := by
  induction h with
  | done => simp at ha
  | more s p b u as v _ _ hb _ ih =>
    rcases List.mem_cons.mp ha with rfl | ha
    · exact ⟨u, hb, fun t ht => by simp [ht]⟩
    · obtain ⟨v', h1, h2⟩ := ih ha
      exact ⟨v', h1, fun t ht => by simp [h2 t ht]⟩

theorem items_mem {α : Type} {D : Dialect} {G : α → List Token → Prop} {as : List α} {w : List Token} (h : Items D G as w) (a : α)
    (ha : a ∈ as) : ∃ v, G a v ∧ ∀ t ∈ v, t ∈ w := by
  cases h with
  | empty => simp at ha
  | items b u as v hb hv =>
    rcases List.mem_cons.mp ha with rfl | ha
    · exact ⟨u, hb, fun t ht => by simp [ht]⟩
    · obtain ⟨v', h1, h2⟩ := more_mem hv a ha
      exact ⟨v', h1, fun t ht => by simp [h2 t ht]⟩

/-- The names that are shown are identifiers of the source. -/
theorem names_tokens {m : Module} {w : List Token} (h : ModuleG implemented m w) :
    ∀ s ∈ shownNames (definitions m.entries), Token.ident s ∈ w := by
  obtain ⟨p, q, n, r, ws, u, v, -, -, hitems, rfl⟩ := h
  intro s hs
  obtain ⟨d, hd, hs⟩ := List.mem_flatMap.mp hs
  have hdm : ModuleEntry.definition d ∈ m.entries := by
    have : ∀ l : List ModuleEntry, d ∈ definitions l → ModuleEntry.definition d ∈ l := by
      intro l
      induction l with
      | nil => simp [definitions]
      | cons x l ih =>
        cases x with
        | definition d' => simp only [definitions, List.mem_cons]; rintro (rfl | h); exacts [Or.inl rfl, Or.inr (ih h)]
        | relation _ => simp only [definitions, List.mem_cons]; exact fun h => Or.inr (ih h)
    exact this _ hd
  obtain ⟨w', hw', hsub⟩ := items_mem hitems _ hdm
  have : Token.ident s ∈ w' := by
    cases hw' with
    | definition hdef =>
      obtain ⟨p', q', ws', r', -, hf, -, rfl⟩ := hdef
      rcases List.mem_cons.mp hs with rfl | hs
      · simp
      · obtain ⟨f, hfm, rfl⟩ := List.mem_map.mp hs
        obtain ⟨v', hv', hsub'⟩ := items_mem hf f hfm
        have := hsub' (.ident f.name) (by rw [hv']; simp)
        simp [this]
  have := hsub _ this
  simp [this]

theorem word_plain {s : Str} (h : IsWord s) : PlainText s := by
  apply plainOk_spec
  have hw : ∀ c ∈ s, isIdentContinue c = true := by
    obtain ⟨c, cs, rfl, h1, h2⟩ := h
    intro d hd
    rcases List.mem_cons.mp hd with rfl | hd
    · exact (isIdentContinue_iff d).mpr (Or.inl h1)
    · exact (isIdentContinue_iff d).mpr (h2 d hd)
  refine List.all_eq_true.mpr fun c hc => ?_
  have hc := (isIdentContinue_iff c).mp (hw c hc)
  have hr : 48 ≤ c.toNat ∧ c.toNat ≤ 122 ∧ c ≠ ']' ∧ c ≠ '<' := by
    have key : ∀ a b : Char, a ≤ c ∧ c ≤ b → a.toNat ≤ c.toNat ∧ c.toNat ≤ b.toNat := fun a b h => h
    rcases hc with (h | h | rfl) | h
    · have h := key _ _ h
      have h1 : 97 ≤ c.toNat := h.1
      have h2 : c.toNat ≤ 122 := h.2
      exact ⟨by omega, by omega, by rintro rfl; revert h1; decide, by rintro rfl; revert h1; decide⟩
    · have h := key _ _ h
      have h1 : 65 ≤ c.toNat := h.1
      have h2 : c.toNat ≤ 90 := h.2
      exact ⟨by omega, by omega, by rintro rfl; revert h2; decide, by rintro rfl; revert h1; decide⟩
    · decide
    · have h := key _ _ h
      have h1 : 48 ≤ c.toNat := h.1
      have h2 : c.toNat ≤ 57 := h.2
      exact ⟨by omega, by omega, by rintro rfl; revert h2; decide, by rintro rfl; revert h2; decide⟩
  obtain ⟨h1, h2, h3, h4⟩ := hr
  have hne : ∀ d : Char, d.toNat < 48 → c ≠ d := by rintro d hd rfl; omega
  have e1 : (c.toNat != 0xFFFE) = true := by simp only [bne_iff_ne, ne_eq]; omega
  have e2 : (c.toNat != 0xFFFF) = true := by simp only [bne_iff_ne, ne_eq]; omega
  have e3 : decide (32 ≤ c.toNat) = true := by simp only [decide_eq_true_eq]; omega
  simp only [isXmlChar, e1, e2, e3, Bool.and_self, Bool.or_true, Bool.true_and, Bool.and_eq_true, bne_iff_ne, ne_eq]
  exact ⟨⟨⟨h4, hne _ (by decide)⟩, hne _ (by decide)⟩, h3⟩

/-- **C65** holds for sources without quoted identifiers: what is written is well-formed XML and shows the picture of the
module.  Missing for the full claim: sources with quoted identifiers, for which it is false (`C65_refuted`); by `C64_svg_text`
it holds for those too whose names are plain text. -/
theorem C65_output_partial {q : Queue} {QI : List Entry → Prop} (hq : q.Lawful QI) (src : Str) (hsrc : '`' ∉ src) (m : Module)
    (hm : Contains src m) (hne : definitions m.entries ≠ []) (hsize : picHeight (lineNumbers (definitions m.entries)) ≤ 1000000000)
    (out : Str) (hout : stdoutText q id src = some out) :
    ∃ (x : Xml) (relations : List (List Element)), readXml out = some x ∧
      Shows (svgDocument (picture (definitions m.entries) relations.flatten)) x ∧
      List.Forall₂ (ShowsRelation (lineNumbers (definitions m.entries)) (connections [] m.entries)) (connections [] m.entries) relations := by
  have hd : (runMain q src).drawing = some (drawModule q m) := by
    rw [runMain_drawing, (parse_contains src m).mpr hm]; rfl
  rw [stdoutText, hd] at hout
  cases hdm : drawModule q m with
  | error e => rw [hdm] at hout; cases hout
  | ok el =>
    rw [hdm] at hout
    cases hout
    refine C64_svg_text hq m hne hsize el hdm ?_
    intro t ht
    obtain ⟨ts, errs, w, r, hs, e, hw⟩ := hm
    refine word_plain (scan_words hs hsrc t ?_)
    rw [e]
    exact List.mem_append.mpr (Or.inl (names_tokens hw t ht))

/-- A source meeting the hypotheses: it has no quoted identifier, and a drawing with two tables and a relation is written. -/
def plainSource : Str := c!"erd { a { id int PK }; b { id int; a_id int FK }; a.id o--o b.a_id }"

set_option maxRecDepth 100000 in
example : '`' ∉ plainSource ∧ ((parse plainSource).1.map fun m => ((definitions m.entries).length, (connections [] m.entries).length)) = some (2, 1) ∧
    (stdoutText BinHeap.queue id plainSource).isSome = true := by decide +kernel

/-- The names of the elements of a tree. -/
def Spec.elementNames : Xml → List Str
  | .text _ => []
  | .elem n _ c => n :: names c
where names : List Xml → List Str
  | [] => []
  | x :: xs => elementNames x ++ names xs

set_option maxRecDepth 100000 in
/-- **C65 is false as stated**: the table name `<` is written as it is, and the output is not XML. -/
theorem C65_refuted : ∃ src, (stdoutText BinHeap.queue id src).isSome = true ∧
    ((stdoutText BinHeap.queue id src).bind readXml).isNone = true :=
  ⟨c!"erd { `<` { } }", by decide +kernel⟩

set_option maxRecDepth 100000 in
/-- **C65 is false as stated**: a control character, written as an escape sequence in the source, is not allowed in XML. -/
theorem C65_refuted_control : ∃ src, (∀ c ∈ src, 32 ≤ c.toNat ∧ c ≠ '<' ∧ c ≠ '&') ∧ (stdoutText BinHeap.queue id src).isSome = true ∧
    ((stdoutText BinHeap.queue id src).bind readXml).isNone = true :=
  ⟨c!"erd { `\\b` { } }", by decide +kernel⟩

set_option maxRecDepth 100000 in
/-- **C65 is false as stated**: a name can contain markup, and the output then is XML with elements that are not part of any
picture, for instance a script. -/
theorem C65_injection : ∃ src, (((stdoutText BinHeap.queue id src).bind readXml).map fun x => (elementNames x).contains c!"script") = some true :=
  ⟨c!"erd { `</text><script/><text>` { } }", by decide +kernel⟩

end Seiren
