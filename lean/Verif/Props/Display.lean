import Verif.Proofs.Display
import Verif.Proofs.PlainText
import Verif.Props.Program
import Verif.Props.Machine
/-! # C78, C79: numbers as text, and the text written on the machine -/

namespace Seiren
open Spec

/-! ## C78 -/

/-- **C78.** Every positive number of the format is printed as the shortest decimal number that is read as it: what is printed is a
decimal number without exponent, it is rounded to the given number when it is read, no multiple of a greater power of ten
is, and among the multiples of the same power of ten that are it is the closest one to the number, the greater one of two.  A negative number is printed with a minus
before it, and zero as `0`. -/
theorem C78_numbers (x : Rat) (hx : 0 < x) (hf : IsF32 x) :
    (∃ (c : Nat) (k : Int), decimal (displayF32 x) = some ((c : Rat) * 10 ^ k) ∧ ShortestDecimal x c k) ∧
    displayF32 (-x) = '-' :: displayF32 x ∧ displayF32 0 = c!"0" := by
  refine ⟨⟨_, _, ?_, shortest_spec hx hf⟩, displayF32_neg hx, by decide +kernel⟩
  have htext : displayF32 x = decimalText (shortestFrom x 200 39).1 (shortestFrom x 200 39).2 := by
    unfold displayF32
    rw [if_neg hx.ne', if_neg (not_lt.mpr hx.le), abs_of_pos hx]
    exact List.nil_append _
  rw [htext, decimal_decimalText]

/-- **C78, the text.** Every positive number of the format is printed without superfluous digits, and so the text is determined: it is the only
text without superfluous digits that is read as the shortest decimal number. -/
theorem C78_text (x : Rat) (hx : 0 < x) (hf : IsF32 x) (s : Str) :
    s = displayF32 x ↔ Plain s ∧ ∃ (c : Nat) (k : Int), unsigned s = some ((c : Rat) * 10 ^ k) ∧ ShortestDecimal x c k := by
  have htext : displayF32 x = decimalText (shortestFrom x 200 39).1 (shortestFrom x 200 39).2 := by
    unfold displayF32
    rw [if_neg hx.ne', if_neg (not_lt.mpr hx.le), abs_of_pos hx]
    exact List.nil_append _
  have hs := shortest_spec hx hf
  have hplain : Plain (displayF32 x) := by rw [htext]; exact decimalText_plain hs.last
  constructor
  · rintro rfl
    exact ⟨hplain, _, _, by rw [htext]; exact unsigned_decimalText _ _, hs⟩
  · rintro ⟨hp, c, k, hu, hck⟩
    obtain ⟨rfl, rfl⟩ := hck.unique hs
    refine plain_unique hp hplain ?_
    rw [hu, htext, unsigned_decimalText]

/-- So no two numbers of the format are printed alike: reading and rounding gives the number back. -/
theorem C78_read_back (x : Rat) (hx : 0 < x) (hf : IsF32 x) : (decimal (displayF32 x)).map roundF32 = some x := by
  obtain ⟨⟨c, k, h, hs⟩, -⟩ := C78_numbers x hx hf
  rw [h, Option.map_some, hs.reads]

set_option maxRecDepth 100000 in
/-- Some numbers of the format and their texts. -/
example : IsF32 (13421773 / 2 ^ 27) ∧ displayF32 (13421773 / 2 ^ 27) = c!"0.1" ∧ displayF32 16777216 = c!"16777216" ∧
    displayF32 (11184811 / 2 ^ 25) = c!"0.33333334" ∧ displayF32 (8388609 / 4) = c!"2097152.3" ∧ displayF32 123456792 = c!"123456790" ∧
    displayF32 (1 / 2 ^ 149) = c!"0.000000000000000000000000000000000000000000001" ∧
    displayF32 f32Min = c!"-340282350000000000000000000000000000000" :=
  ⟨⟨13421773, -27, by norm_num, by norm_num, by norm_num, by norm_num⟩, by decide +kernel⟩

/-! ## The numbers of a picture -/

/-- The numbers in a value. -/
def AttrVal.numbersIn : AttrVal → List Rat
  | .str _ => []
  | .num x => [x]
  | .nums xs => xs
  | .path cs => cs.flatMap fun c => (pointsOf c).flatMap fun p => [p.x, p.y]
  | .points ps => ps.flatMap fun p => [p.x, p.y]

mutual
/-- All numbers in the attributes of an element have a property. -/
def AllNums (P : Rat → Prop) : Element → Prop
  | .mk _ attrs children _ => (∀ a ∈ attrs, ∀ x ∈ a.2.numbersIn, P x) ∧ AllNumsList P children
/-- The same for lists. -/
def AllNumsList (P : Rat → Prop) : List Element → Prop
  | [] => True
  | e :: es => AllNums P e ∧ AllNumsList P es
end

theorem allNumsList_iff (P : Rat → Prop) (es : List Element) : AllNumsList P es ↔ ∀ e ∈ es, AllNums P e := by
  induction es with
  | nil => simp [AllNumsList]
  | cons e es ih => simp [AllNumsList, ih]

mutual
theorem allNums_mono {P Q : Rat → Prop} (h : ∀ x, P x → Q x) (e : Element) (he : AllNums P e) : AllNums Q e := by
  match e, he with
  | .mk name attrs children text, he => exact ⟨fun a ha x hx => h x (he.1 a ha x hx), allNumsList_mono h children he.2⟩
theorem allNumsList_mono {P Q : Rat → Prop} (h : ∀ x, P x → Q x) (es : List Element) (he : AllNumsList P es) : AllNumsList Q es := by
  match es, he with
  | [], _ => trivial
  | e :: es, he => exact ⟨allNums_mono h e he.1, allNumsList_mono h es he.2⟩
end

section
variable {P : Rat → Prop} {f : Rat → Str}

theorem displayWith_path (hf : ∀ x, P x → f x = displayNum x) (c : PathCommand) (h : ∀ x ∈ (pointsOf c).flatMap fun p => [p.x, p.y], P x) : c.displayWith f = c.display := by
  cases c <;> simp only [pointsOf, List.flatMap_cons, List.flatMap_nil, List.append_nil, List.cons_append, List.nil_append,
    List.mem_cons, List.not_mem_nil, or_false, forall_eq_or_imp, forall_eq] at h
  · simp only [PathCommand.displayWith, PathCommand.display, hf _ h.1, hf _ h.2]
  · simp only [PathCommand.displayWith, PathCommand.display, hf _ h.1, hf _ h.2]
  · simp only [PathCommand.displayWith, PathCommand.display, hf _ h.1, hf _ h.2.1, hf _ h.2.2.1, hf _ h.2.2.2]

theorem displayWith_eq (hf : ∀ x, P x → f x = displayNum x) (v : AttrVal) (h : ∀ x ∈ v.numbersIn, P x) : v.displayWith f = v.display := by
  cases v with
  | str s => rfl
  | num x => exact hf x (h x (by simp [AttrVal.numbersIn]))
  | nums xs =>
    simp only [AttrVal.displayWith, AttrVal.display]
    rw [List.map_congr_left (l := xs) fun x hx => hf x (h x hx)]
  | path cs =>
    simp only [AttrVal.displayWith, AttrVal.display]
    rw [List.map_congr_left fun c hc => displayWith_path hf c fun x hx => h x (List.mem_flatMap.mpr ⟨c, hc, hx⟩)]
  | points ps =>
    simp only [AttrVal.displayWith, AttrVal.display]
    rw [List.map_congr_left fun p hp => by
      rw [hf p.x (h _ (List.mem_flatMap.mpr ⟨p, hp, by simp⟩)), hf p.y (h _ (List.mem_flatMap.mpr ⟨p, hp, by simp⟩))]]

mutual
theorem toTextWith_eq (hf : ∀ x, P x → f x = displayNum x) (esc : Str → Str) (e : Element) (h : AllNums P e) : e.toTextWith f esc = e.toText esc := by
  match e, h with
  | .mk name attrs children text, h =>
    obtain ⟨h1, h2⟩ := h
    rw [Element.toTextWith, Element.toText, childrenTextWith_eq hf esc children h2,
      List.map_congr_left fun a ha => by rw [displayWith_eq hf a.2 (h1 a ha)]]
theorem childrenTextWith_eq (hf : ∀ x, P x → f x = displayNum x) (esc : Str → Str) (es : List Element) (h : AllNumsList P es) : childrenTextWith f esc es = childrenText esc es := by
  match es, h with
  | [], _ => rfl
  | e :: es, h => rw [childrenTextWith, childrenText, toTextWith_eq hf esc e h.1, childrenTextWith_eq hf esc es h.2]
end

end

/-- A multiple of 1/2 below 2^23. -/
def Small (x : Rat) : Prop := ∃ n : Int, |n| < 2 ^ 24 ∧ x = (n : Rat) / 2

/-- A positive multiple of 1/2 below 2^23. -/
def Positive (x : Rat) : Prop := 0 < x ∧ Small x

theorem small_of {x : Rat} (h : Half x) (h0 : 0 < x) (h1 : x ≤ 2 ^ 22 + 1000) : Positive x := by
  refine ⟨h0, ?_⟩
  obtain ⟨n, rfl⟩ := h
  refine ⟨n, ?_, rfl⟩
  have a0 : (-2000 : Rat) ≤ n := by linarith
  have a1 : (n : Rat) ≤ 8390608 := by linarith
  have b0 : -2000 ≤ n := by exact_mod_cast a0
  have b1 : n ≤ 8390608 := by exact_mod_cast a1
  rw [abs_lt]
  constructor <;> omega

theorem allNums_leaf {P : Rat → Prop} {name : Str} {attrs : List (Str × AttrVal)} {text : Option Str}
    (h : ∀ v ∈ attrs.map (·.2), ∀ x ∈ v.numbersIn, P x) : AllNums P (.mk name attrs [] text) :=
  ⟨fun a ha => h _ (List.mem_map.mpr ⟨a, ha, rfl⟩), trivial⟩

theorem small_str (s : Str) : ∀ x ∈ (AttrVal.str s).numbersIn, Positive x := by simp [AttrVal.numbersIn]

theorem small_num {x : Rat} (h : Positive x) : ∀ y ∈ (AttrVal.num x).numbersIn, Positive y := by simpa [AttrVal.numbersIn] using h

/-- A place where something of a table may be drawn. -/
def Inside (x : Rat) : Prop := Half x ∧ 10 ≤ x ∧ x ≤ 2 ^ 22

theorem Inside.small {x : Rat} (h : Inside x) (d : Rat) (hd : Half d) (h0 : 0 ≤ d) (h1 : d ≤ 500) : Positive (x + d) :=
  small_of (h.1.add hd) (by linarith [h.2.1]) (by linarith [h.2.2])

theorem Inside.small' {x : Rat} (h : Inside x) : Positive x := small_of h.1 (by linarith [h.2.1]) (by linarith [h.2.2])

theorem smallPicText {x y : Rat} (hx : Positive x) (hy : Inside y) {anchor fill font : Str} {style : List (Str × AttrVal)} {text : Str}
    (hv : ∀ v ∈ style.map (·.2), ∃ s, v = .str s) : AllNums Positive (picText x y anchor fill font style text) := by
  refine allNums_leaf ?_
  intro v hv'
  simp only [List.map_append, List.map_cons, List.map_nil, List.mem_append, List.mem_cons, List.not_mem_nil, or_false] at hv'
  rcases hv' with (rfl | rfl | rfl | rfl | rfl | rfl) | hv'
  · exact small_num hx
  · exact small_num (hy.small _ ⟨35, by norm_num⟩ (by norm_num) (by norm_num))
  · exact small_str _
  · exact small_str _
  · exact small_str _
  · exact small_str _
  · obtain ⟨s, rfl⟩ := hv v hv'
    exact small_str _

theorem small_lit (n : Int) (x : Rat) (h : x = (n : Rat) / 2) (hn : |n| < 2 ^ 24) (h0 : 0 < n := by norm_num) : Positive x :=
  ⟨by rw [h]; have : (0 : Rat) < n := by exact_mod_cast h0
      linarith, n, hn, h⟩

theorem smallFrame {x y : Rat} (hx : Inside x) (hy : Inside y) (n : Nat) (h0 : 0 < n) (hn : 35 * (n : Rat) ≤ 2 ^ 22) {colors : List (Str × AttrVal)}
    (hv : ∀ v ∈ colors.map (·.2), ∃ s, v = .str s) : AllNums Positive (picFrame x y n colors) := by
  refine allNums_leaf ?_
  intro v hv'
  simp only [List.map_append, List.map_cons, List.map_nil, List.mem_append, List.mem_cons, List.not_mem_nil, or_false] at hv'
  rcases hv' with (rfl | rfl | rfl | rfl | rfl | rfl) | hv'
  · exact small_num hx.small'
  · exact small_num hy.small'
  · exact small_num (small_lit 600 _ (by norm_num) (by norm_num))
  · exact small_num (small_of ⟨70 * n, by push_cast; ring⟩ (by have : (0 : Rat) < n := by exact_mod_cast h0
                                                               linarith) (by linarith))
  · exact small_num (small_lit 12 _ (by norm_num) (by norm_num))
  · exact small_num (small_lit 12 _ (by norm_num) (by norm_num))
  · obtain ⟨s, rfl⟩ := hv v hv'
    exact small_str _

theorem smallHeader (k : Nat) {x y : Rat} (hx : Inside x) (hy : Inside y) {name : Str} : ∀ e ∈ picHeader k x y name, AllNums Positive e := by
  intro e he
  simp only [picHeader, List.mem_cons, List.not_mem_nil, or_false] at he
  rcases he with rfl | rfl
  · refine allNums_leaf ?_
    intro v hv
    simp only [List.map_cons, List.map_nil, List.mem_cons, List.not_mem_nil, or_false] at hv
    rcases hv with rfl | rfl | rfl | rfl | rfl | rfl
    · exact small_num hx.small'
    · exact small_num hy.small'
    · exact small_num (small_lit 600 _ (by norm_num) (by norm_num))
    · exact small_num (small_lit 70 _ (by norm_num) (by norm_num))
    · exact small_str _
    · exact small_str _
  · refine smallPicText (hx.small _ ⟨24, by norm_num⟩ (by norm_num) (by norm_num)) hy ?_
    simp only [List.map_cons, List.map_nil, List.mem_singleton]
    rintro v rfl; exact ⟨_, rfl⟩

theorem smallBadge {x y : Rat} (hx : Inside x) (hy : Inside y) (k : EntityFieldKey) : ∀ e ∈ picBadge x y k, AllNums Positive e := by
  intro e he
  simp only [picBadge, List.mem_cons, List.not_mem_nil, or_false] at he
  have h1 := hx.small (553 / 2) ⟨553, by norm_num⟩ (by norm_num) (by norm_num)
  rcases he with rfl | rfl
  · refine allNums_leaf ?_
    intro v hv
    simp only [List.map_cons, List.map_nil, List.mem_cons, List.not_mem_nil, or_false] at hv
    rcases hv with rfl | rfl | rfl | rfl
    · exact small_num h1
    · exact small_num (hy.small _ ⟨35, by norm_num⟩ (by norm_num) (by norm_num))
    · exact small_num (small_lit 23 _ (by norm_num) (by norm_num))
    · exact small_str _
  · refine smallPicText h1 hy ?_
    simp only [List.map_cons, List.map_nil, List.mem_singleton]
    rintro v rfl; exact ⟨_, rfl⟩

theorem smallColumn {x y : Rat} (hx : Inside x) (hy : Inside y) (f : EntityField) : ∀ e ∈ picColumn x y f, AllNums Positive e := by
  intro e he
  simp only [picColumn, List.mem_append, List.mem_cons, List.not_mem_nil, or_false] at he
  rcases he with (rfl | rfl | rfl) | he
  · refine allNums_leaf ?_
    intro v hv
    simp only [List.map_cons, List.map_nil, List.mem_cons, List.not_mem_nil, or_false] at hv
    rcases hv with rfl | rfl | rfl | rfl | rfl | rfl
    · exact small_num hx.small'
    · exact small_num (hx.small _ ⟨600, by norm_num⟩ (by norm_num) (by norm_num))
    · exact small_num hy.small'
    · exact small_num hy.small'
    · exact small_str _
    · exact small_num (small_lit 2 _ (by norm_num) (by norm_num))
  · refine smallPicText (hx.small _ ⟨24, by norm_num⟩ (by norm_num) (by norm_num)) hy ?_
    simp only [List.map_cons, List.map_nil, List.mem_singleton]
    rintro v rfl; exact ⟨_, rfl⟩
  · refine smallPicText (hx.small _ ⟨480, by norm_num⟩ (by norm_num) (by norm_num)) hy ?_
    simp only [List.map_cons, List.map_nil, List.mem_cons, List.not_mem_nil, or_false]
    rintro v (rfl | rfl) <;> exact ⟨_, rfl⟩
  · cases hk : f.fieldKey with
    | none => rw [hk] at he; simp at he
    | some k =>
      rw [hk] at he
      exact smallBadge hx hy k e he

theorem tableX_inside (k : Nat) : Inside (tableX k) := by
  refine ⟨tableX_half k, ?_⟩
  have h3 : k % 3 < 3 := Nat.mod_lt _ (by norm_num)
  unfold tableX
  generalize k % 3 = c at h3
  have : c = 0 ∨ c = 1 ∨ c = 2 := by omega
  rcases this with rfl | rfl | rfl <;> norm_num

section
variable {ns : List Nat} (hlow : Low ns)
include hlow

theorem line_inside {k n : Nat} (hk : ns[k]? = some n) (j : Nat) (hj : j ≤ n) : Inside (rowTop ns (k / 3) + 35 * (j : Rat)) := by
  have h1 := hlow k n hk
  unfold bot at h1
  have h2 := rowTop_ge ns (k / 3)
  have h3 : (j : Rat) ≤ n := by exact_mod_cast hj
  have h4 : (0 : Rat) ≤ j := by positivity
  exact ⟨(rowTop_half ns _).add ⟨70 * j, by push_cast; ring⟩, by linarith, by linarith⟩

theorem top_inside {k n : Nat} (hk : ns[k]? = some n) : Inside (rowTop ns (k / 3)) := by
  have := line_inside hlow hk 0 (by omega)
  simpa using this

theorem lines_le {k n : Nat} (hk : ns[k]? = some n) : 35 * (n : Rat) ≤ 2 ^ 22 := by
  have h1 := hlow k n hk
  unfold bot at h1
  have h2 := rowTop_ge ns (k / 3)
  linarith

theorem smallTable (d : EntityDefinition) (k : Nat) (hk : ns[k]? = some (d.fields.length + 1)) :
    ∀ e ∈ picTable ns d k, AllNums Positive e := by
  intro e he
  have hx := tableX_inside k
  have hy := top_inside hlow hk
  simp only [picTable, List.mem_cons, List.mem_append, List.mem_flatMap] at he
  rcases he with rfl | he | ⟨⟨f, j⟩, hfj, he⟩
  · refine smallFrame hx hy _ (by omega) (lines_le hlow hk) ?_
    simp only [List.map_cons, List.map_nil, List.mem_cons, List.not_mem_nil, or_false]
    rintro v (rfl | rfl) <;> exact ⟨_, rfl⟩
  · exact smallHeader k hx hy e he
  · have hj : j < d.fields.length := (List.getElem?_eq_some_iff.mp (List.mem_zipIdx_iff_getElem?.mp hfj)).1
    have := line_inside hlow hk (j + 1) (by omega)
    rw [show ((j + 1 : Nat) : Rat) = (j : Rat) + 1 by push_cast; rfl] at this
    exact smallColumn hx this f e he

theorem smallClip (d : EntityDefinition) (k : Nat) (hk : ns[k]? = some (d.fields.length + 1)) : AllNums Positive (picClip ns d k) := by
  refine ⟨?_, smallFrame (tableX_inside k) (top_inside hlow hk) _ (by omega) (lines_le hlow hk) (by simp), trivial⟩
  simp only [List.mem_singleton]
  rintro a rfl
  exact small_str _

end

/-- The numbers of a list of path commands. -/
theorem pathNumbers_append (cs ds : List PathCommand) :
    (AttrVal.path (cs ++ ds)).numbersIn = (AttrVal.path cs).numbersIn ++ (AttrVal.path ds).numbersIn := by
  simp [AttrVal.numbersIn]

theorem corner_small {i : Nat} {bp pt fp : Point} {l : List PathCommand} (h : corner i bp pt fp = .ok l) (hp : Inside pt.x ∧ Inside pt.y) :
    ∀ x ∈ (AttrVal.path l).numbersIn, Positive x := by
  have a1 := hp.1.small'
  have a2 := hp.2.small'
  have a3 := hp.1.small 6 ⟨12, by norm_num⟩ (by norm_num) (by norm_num)
  have a4 := hp.2.small 6 ⟨12, by norm_num⟩ (by norm_num) (by norm_num)
  have hm : ∀ {x : Rat}, Inside x → Positive (x - 6) := by
    intro x hx
    exact small_of (hx.1.sub ⟨12, by norm_num⟩) (by linarith [hx.2.1]) (by linarith [hx.2.2])
  have a5 := hm hp.1
  have a6 := hm hp.2
  unfold corner at h
  simp only [pathRadius] at h
  split at h <;> first
    | cases h; done
    | (cases h
       simp only [AttrVal.numbersIn, pointsOf, List.flatMap_cons, List.flatMap_nil, List.append_nil, List.cons_append, List.nil_append,
         List.mem_cons, List.not_mem_nil, or_false, forall_eq_or_imp, forall_eq]
       simp only [a1, a2, a3, a4, a5, a6, and_self])

theorem pathTail_small (ps : List Point) (hps : ∀ p ∈ ps, Inside p.x ∧ Inside p.y) (i : Nat) (bp : Point) (cs : List PathCommand)
    (h : pathTail i bp ps = .ok cs) : ∀ x ∈ (AttrVal.path cs).numbersIn, Positive x := by
  induction ps generalizing i bp cs with
  | nil => cases h; simp [AttrVal.numbersIn]
  | cons pt ps ih =>
    cases ps with
    | nil =>
      cases h
      have := hps pt (by simp)
      simp only [AttrVal.numbersIn, pointsOf, List.flatMap_cons, List.flatMap_nil, List.append_nil, List.mem_cons, List.not_mem_nil,
        or_false, forall_eq_or_imp, forall_eq]
      exact ⟨this.1.small', this.2.small'⟩
    | cons fp rest =>
      rw [pathTail] at h
      cases hc : corner i bp pt fp with
      | error e => rw [hc] at h; cases h
      | ok l =>
        rw [hc] at h
        simp only at h
        cases ht : pathTail (i + 1) pt (fp :: rest) with
        | error e => rw [ht] at h; cases h
        | ok l' =>
          rw [ht] at h
          cases h
          intro x hx
          rw [pathNumbers_append, List.mem_append] at hx
          rcases hx with hx | hx
          · exact corner_small hc (hps pt (by simp)) x hx
          · exact ih (fun p hp => hps p (by simp only [List.mem_cons] at hp ⊢; exact Or.inr hp)) _ _ _ ht x hx

/-- The commands of a path do not leave its points by more than the radius of a corner. -/
theorem pathData_small {ps : List Point} {cs : List PathCommand} (h : pathData ps = .ok cs) (hps : ∀ p ∈ ps, Inside p.x ∧ Inside p.y) :
    ∀ x ∈ (AttrVal.path cs).numbersIn, Positive x := by
  match ps with
  | [] => cases h
  | [p] => cases h
  | p :: q :: rest =>
    rw [pathData] at h
    cases ht : pathTail 1 p (q :: rest) with
    | error e => rw [ht] at h; cases h
    | ok l =>
      rw [ht] at h
      cases h
      intro x hx
      have e : PathCommand.moveTo p :: l = [.moveTo p] ++ l := rfl
      rw [e, pathNumbers_append, List.mem_append] at hx
      rcases hx with hx | hx
      · have := hps p (by simp)
        simp only [AttrVal.numbersIn, pointsOf, List.flatMap_cons, List.flatMap_nil, List.append_nil, List.mem_cons, List.not_mem_nil,
          or_false] at hx
        rcases hx with rfl | rfl
        · exact this.1.small'
        · exact this.2.small'
      · exact pathTail_small (q :: rest) (fun p hp => hps p (by simp only [List.mem_cons] at hp ⊢; exact Or.inr hp)) _ _ _ ht x hx

theorem smallEnd {p : Point} (hx : Inside p.x) (hy : Inside p.y) : AllNums Positive (endCircle p) := by
  refine allNums_leaf ?_
  intro v hv
  simp only [List.map_cons, List.map_nil, List.mem_cons, List.not_mem_nil, or_false] at hv
  rcases hv with rfl | rfl | rfl | rfl | rfl | rfl
  · exact small_num hx.small'
  · exact small_num hy.small'
  · exact small_num (small_lit 8 _ (by norm_num) (by norm_num))
  · exact small_str _
  · exact small_num (small_lit 3 _ (by norm_num) (by norm_num))
  · exact small_str _

/-- What is drawn for an edge. -/
theorem smallEdge {e : EdgeData} {els : List Element} (h : drawEdgeConnection e = .ok els)
    (hps : ∀ ps, e.pathPoints = some ps → ∀ p ∈ ps, Inside p.x ∧ Inside p.y) : ∀ el ∈ els, AllNums Positive el := by
  obtain ⟨ps, d, a, b, hp, hd, ha, hb, rfl⟩ := drawEdge_ok h
  have hps := hps ps hp
  have hca := hps a (List.mem_of_head? ha)
  have hcb := hps b (List.mem_of_getLast? hb)
  intro el hel
  simp only [List.mem_cons, List.not_mem_nil, or_false] at hel
  rcases hel with rfl | rfl | rfl
  · refine allNums_leaf ?_
    intro v hv
    simp only [List.map_cons, List.map_nil, List.mem_cons, List.not_mem_nil, or_false] at hv
    rcases hv with rfl | rfl | rfl | rfl
    · exact small_str _
    · exact small_num (small_lit 3 _ (by norm_num) (by norm_num))
    · exact small_str _
    · exact pathData_small hd hps
  · exact smallEnd hca.1 hca.2
  · exact smallEnd hcb.1 hcb.2

/-- All numbers of the picture of a module that is not too high are positive multiples of 1/2 below 2^23, but for the origin of
the view box. -/
theorem good_drawing {q : Queue} {QI : List Entry → Prop} (hq : q.Lawful QI) (m : Module) (hne : definitions m.entries ≠ [])
    (hh : picHeight (lineNumbers (definitions m.entries)) ≤ 2 ^ 22) (el : Element) (h : drawModule q m = .ok el) :
    ∃ h children, el = .mk c!"svg" [(c!"viewBox", .nums [0, 0, 1160, h])] children none ∧ Positive h ∧ AllNumsList Positive children := by
  have hd := drawable_intoMir m
  have hns : lineCounts m.intoMir = lineNumbers (definitions m.entries) := lineCounts_intoMir m
  have htlen : (tables m.intoMir).length = (definitions m.entries).length := by rw [tables_intoMir, recordIds_length]
  have htne : tables m.intoMir ≠ [] := by
    intro h0
    rw [h0] at htlen
    exact hne (List.length_eq_zero_iff.mp htlen.symm)
  obtain ⟨hsize, hblocks⟩ := picture_blocks hq m hne (hh.trans (by norm_num))
  have hv : (placeNodes m.intoMir).2 = ⟨⟨0, 0⟩, ⟨1160, picHeight (lineNumbers (definitions m.entries))⟩⟩ := by
    have := placed_viewBox hd.tabular htne
    simp only at this
    rw [this, hns, htlen, picHeight]
    simp [lineNumbers]
  have hlow : Low (lineNumbers (definitions m.entries)) := by
    rw [← hns]
    refine (scene_of_height m.intoMir hd htne ?_).2
    have : (placeNodes m.intoMir).2.size.height = diagramHeight m.intoMir := by rw [placed_viewBox hd.tabular htne]; rfl
    rw [← this, hv]
    exact hh
  obtain ⟨doc', g', h1, -⟩ := drawn_connections hq m hsize
  obtain ⟨bs, hbs, rfl⟩ := hblocks el h doc' g' h1
  refine ⟨_, _, rfl, ?_, ?_⟩
  · refine small_of ?_ ?_ (hh.trans (by norm_num))
    · unfold picHeight
      exact ((rowTop_half _ _).add ⟨70 * (tallest (lineNumbers (definitions m.entries)) (((lineNumbers (definitions m.entries)).length - 1) / 3) : Nat), by push_cast; ring⟩).add
        ⟨100, by norm_num⟩
    · unfold picHeight
      have := rowTop_ge (lineNumbers (definitions m.entries)) (((lineNumbers (definitions m.entries)).length - 1) / 3)
      have h0 : (0 : Rat) ≤ (tallest (lineNumbers (definitions m.entries)) (((lineNumbers (definitions m.entries)).length - 1) / 3) : Nat) := by
        positivity
      linarith
  · rw [allNumsList_iff]
    intro e he
    have hlines : ∀ (d : EntityDefinition) (k : Nat), (d, k) ∈ (definitions m.entries).zipIdx →
        (lineNumbers (definitions m.entries))[k]? = some (d.fields.length + 1) := by
      intro d k hdk
      rw [lineNumbers, List.getElem?_map, List.mem_zipIdx_iff_getElem?.mp hdk]
      rfl
    simp only [List.cons_append, List.mem_cons, List.mem_append, List.mem_flatMap, List.mem_flatten] at he
    rcases he with rfl | rfl | ⟨⟨d, k⟩, hdk, he⟩ | ⟨els, hels, he⟩
    · refine allNums_leaf ?_
      simp only [List.map_cons, List.map_nil, List.mem_cons, List.not_mem_nil, or_false]
      rintro v (rfl | rfl | rfl) <;> exact small_str _
    · refine ⟨by simp, ?_⟩
      rw [allNumsList_iff]
      intro e he
      obtain ⟨⟨d, k⟩, hdk, rfl⟩ := List.mem_map.mp he
      exact smallClip hlow d k (hlines d k hdk)
    · exact smallTable hlow d k (hlines d k hdk) e he
    · obtain ⟨i, hi⟩ := List.getElem?_of_mem hels
      obtain ⟨hl, hi⟩ := List.getElem?_eq_some_iff.mp hi
      have hlen := hbs.length_eq
      have := (List.forall₂_iff_get.mp hbs).2 i (by omega) hl
      rw [List.get_eq_getElem, List.get_eq_getElem, hi] at this
      refine smallEdge this ?_ e he
      intro ps hps p hp
      have hmem : doc'.edges[i] ∈ doc'.edges := List.getElem_mem _
      have hbox := C37_paths_in_view_box hq m.intoMir hd hsize doc' g' h1 _ hmem ps hps p hp
      have hg := OnGrid.half (drawn_grid hd hsize h1 hmem hps hp)
      simp only [hv, zero_add] at hbox
      exact ⟨⟨hg.1, by linarith [hbox.1], by linarith [hbox.2.1]⟩, ⟨hg.2, by linarith [hbox.2.2.1], by linarith [hbox.2.2.2]⟩⟩

/-- All numbers of the picture of a module that is not too high are multiples of 1/2 below 2^23. -/
theorem small_drawing {q : Queue} {QI : List Entry → Prop} (hq : q.Lawful QI) (m : Module) (hne : definitions m.entries ≠ [])
    (hh : picHeight (lineNumbers (definitions m.entries)) ≤ 2 ^ 22) (el : Element) (h : drawModule q m = .ok el) :
    AllNums Small (withNamespace el) := by
  obtain ⟨h, children, rfl, h1, h2⟩ := good_drawing hq m hne hh el h
  refine ⟨?_, allNumsList_mono (fun _ h => h.2) _ h2⟩
  simp only [List.mem_cons, List.not_mem_nil, or_false]
  rintro a (rfl | rfl)
  · simp [AttrVal.numbersIn]
  · simp only [AttrVal.numbersIn, List.mem_cons, List.not_mem_nil, or_false]
    rintro x (rfl | rfl | rfl | rfl)
    · exact ⟨0, by norm_num, by norm_num⟩
    · exact ⟨0, by norm_num, by norm_num⟩
    · exact ⟨2320, by norm_num, by norm_num⟩
    · exact h1.2

/-! ## C79 -/

/-- The text made on the machine is that of the exact model. -/
theorem svgTextM_eq {q : Queue} {QI : List Entry → Prop} (hq : q.Lawful QI) (m : Module) (hne : definitions m.entries ≠ [])
    (hh : picHeight (lineNumbers (definitions m.entries)) ≤ 2 ^ 22) (el : Element) (h : drawModule q m = .ok el) (esc : Str → Str) :
    svgTextM esc el = svgText esc el := by
  refine toTextWith_eq (P := Small) ?_ esc _ (small_drawing hq m hne hh el h)
  rintro x ⟨n, hn, rfl⟩
  exact displayF32_half n hn

theorem drawModuleM_eq (ovf : Rat → Rat) (w : Nat → Nat) (hw : ∀ n < 4294967296, w n = n) {q : Queue} {QI : List Entry → Prop}
    (hq : q.Lawful QI) (m : Module) (hne : definitions m.entries ≠ [])
    (hh : picHeight (lineNumbers (definitions m.entries)) ≤ 2 ^ 22) : drawModuleM (roundOr ovf) sqrtF32 w q m = drawModule q m := by
  have htlen : (tables m.intoMir).length = (definitions m.entries).length := by rw [tables_intoMir, recordIds_length]
  have htne : tables m.intoMir ≠ [] := by
    intro h0
    rw [h0] at htlen
    exact hne (List.length_eq_zero_iff.mp htlen.symm)
  refine C61_machine_drawing ovf w hw hq m htne ?_
  have hns : lineCounts m.intoMir = lineNumbers (definitions m.entries) := lineCounts_intoMir m
  have hv := placed_viewBox (tabular_intoMir m) htne
  have : (placeNodes m.intoMir).2.size.height = diagramHeight m.intoMir := by rw [hv]; rfl
  rw [← this, hv]
  simp only
  rw [hns, htlen]
  have e : (lineNumbers (definitions m.entries)).length = (definitions m.entries).length := by simp [lineNumbers]
  rw [picHeight, e] at hh
  exact hh

/-- **C79.** Computed as on the machine, with every floating point operation rounded to 32 bits, 32-bit path costs, and numbers printed as
`f32`, the program writes exactly the text of the exact model, for every source whose module has a table and a picture of height at
most 2^22: no number of the text differs in any digit. -/
theorem C79_machine_text (ovf : Rat → Rat) (w : Nat → Nat) (hw : ∀ n < 4294967296, w n = n) {q : Queue} {QI : List Entry → Prop}
    (hq : q.Lawful QI) (esc : Str → Str) (src : Str)
    (h : ∀ m, Contains src m → definitions m.entries ≠ [] ∧ picHeight (lineNumbers (definitions m.entries)) ≤ 2 ^ 22) :
    stdoutTextM (roundOr ovf) sqrtF32 w q esc src = stdoutText q esc src := by
  unfold stdoutTextM stdoutText
  rw [runMain_drawing]
  cases hp : (parse src).1 with
  | none => rfl
  | some m =>
    obtain ⟨hne, hh⟩ := h m ((parse_contains src m).mp hp)
    simp only [Option.map_some]
    rw [drawModuleM_eq ovf w hw hq m hne hh]
    cases hd : drawModule q m with
    | error e => rfl
    | ok el => simp only; rw [svgTextM_eq hq m hne hh el hd esc]

/-- **C79, the whole program**: from the bytes read to the bytes written and the exit status. -/
theorem C79_machine_program (ovf : Rat → Rat) (w : Nat → Nat) (hw : ∀ n < 4294967296, w n = n) {q : Queue} {QI : List Entry → Prop}
    (hq : q.Lawful QI) (esc : Str → Str) (world : World) (name : Str) (input : Option (List UInt8)) (hin : InputOf world name input)
    (h : ∀ bs src m, input = some bs → TextBytes src bs → Contains src m →
      definitions m.entries ≠ [] ∧ picHeight (lineNumbers (definitions m.entries)) ≤ 2 ^ 22) :
    runProgramM (roundOr ovf) sqrtF32 w q esc world = runProgram q esc world := by
  rw [runProgram_input hin]
  have e : runProgramM (roundOr ovf) sqrtF32 w q esc world = finishMainM (roundOr ovf) sqrtF32 w q esc name (readToString input) := by
    cases hin with
    | file hargs => rw [runProgramM, hargs]; rfl
    | stdin hargs => rw [runProgramM, List.getElem?_eq_none (by omega)]
  rw [e]
  cases hr : readToString input with
  | none => rfl
  | some src =>
    have : stdoutTextM (roundOr ovf) sqrtF32 w q esc src = stdoutText q esc src := by
      refine C79_machine_text ovf w hw hq esc src ?_
      intro m hm
      cases input with
      | none => cases hr
      | some bs => exact h bs src m rfl ((C77_utf8.1 bs src).mp hr) hm
    rw [finishMainM, finishMain, this]
    rfl

/-! A source meeting the hypothesis, with two tables and a relation; its picture is drawn. -/
set_option maxRecDepth 100000 in
example : (∃ m, Contains plainSource m) ∧ ∀ m, Contains plainSource m →
    definitions m.entries ≠ [] ∧ picHeight (lineNumbers (definitions m.entries)) ≤ 2 ^ 22 ∧ (drawModule BinHeap.queue m).toOption.isSome = true := by
  have h : ((parse plainSource).1.map fun m => decide (definitions m.entries ≠ [] ∧ picHeight (lineNumbers (definitions m.entries)) ≤ 2 ^ 22 ∧
      (drawModule BinHeap.queue m).toOption.isSome = true)) = some true := by decide +kernel
  obtain ⟨m, hm, h⟩ := Option.map_eq_some_iff.mp h
  refine ⟨⟨m, (parse_contains _ _).mp hm⟩, fun m' hm' => ?_⟩
  rw [(parse_contains _ _).mpr hm'] at hm
  cases hm
  exact of_decide_eq_true h

/-- A module without tables is turned into the empty document, whatever relations it has. -/
theorem intoMir_empty (m : Module) (h : definitions m.entries = []) : m.intoMir = Document.new := by
  unfold Module.intoMir
  have key : ∀ es : List ModuleEntry, definitions es = [] → es.foldl addEntryMir (Document.new, []) = (Document.new, []) := by
    intro es
    induction es with
    | nil => intro _; rfl
    | cons e es ih =>
      intro h
      cases e with
      | definition d => simp [definitions] at h
      | relation r => exact ih h
  rw [key _ h]

/-- The text written for a module without tables: an empty picture with a negative height. -/
def Spec.emptyText : Str :=
  c!"<svg viewBox=\"0, 0, 1160, -340282350000000000000000000000000000000\" xmlns=\"http://www.w3.org/2000/svg\">\n<rect fill=\"#1C1C1C\" height=\"100%\" width=\"100%\"/>\n<defs/>\n</svg>"

set_option maxRecDepth 100000 in
/-- **C79**, modules without tables: on the machine exactly this text is written, with the height -3.4028235e38; C55 tells that the
height of the exact model is another one. -/
theorem C79_empty (ovf : Rat → Rat) (w : Nat → Nat) (q : Queue) (esc : Str → Str) (src : Str) (m : Module) (hm : Contains src m)
    (h : definitions m.entries = []) : stdoutTextM (roundOr ovf) sqrtF32 w q esc src = some emptyText := by
  unfold stdoutTextM
  rw [(parse_contains src m).mpr hm]
  simp only
  have hplace : placeNodesR (roundOr ovf) Document.new = (Document.new, ⟨⟨0, 0⟩, ⟨1160, f32Min⟩⟩) := by
    have e : ∀ x y : Rat, (|x| < 2 ^ 128 - 2 ^ 103 ∧ roundF32 x = y) → roundOr ovf x = y := by
      rintro x y ⟨h1, h2⟩
      rw [roundOr_eq ovf x h1, h2]
    have hb : Document.new.bodyChildren = [] := rfl
    unfold placeNodesR
    rw [hb]
    simp only [List.zipIdx_nil, List.foldl_nil]
    rw [e (ORIGIN.x * 2) 100 (by decide +kernel), e (GRID_N_COLUMNS : Nat) 3 (by decide +kernel), e (3 * RECORD_WIDTH) 900 (by decide +kernel),
      e (100 + 900) 1000 (by decide +kernel), e (GRID_N_COLUMNS - 1 : Nat) 2 (by decide +kernel), e (2 * RECORD_SPACE) 160 (by decide +kernel),
      e (1000 + 160) 1160 (by decide +kernel), e (ORIGIN.y + f32Min) f32Min (by decide +kernel), e (f32Min + ORIGIN.y) f32Min (by decide +kernel)]
    rfl
  have hdraw : drawModuleM (roundOr ovf) sqrtF32 w q m = .ok (.mk c!"svg" [(c!"viewBox", .nums [0, 0, 1160, f32Min])]
      [.mk c!"rect" [(c!"width", .str c!"100%"), (c!"height", .str c!"100%"), (c!"fill", .str c!"#1C1C1C")] [] none,
       .mk c!"defs" [] [] none] none) := by
    unfold drawModuleM
    rw [intoMir_empty m h, hplace]
    rfl
  rw [hdraw]
  have : svgTextM esc (.mk c!"svg" [(c!"viewBox", .nums [0, 0, 1160, f32Min])]
      [.mk c!"rect" [(c!"width", .str c!"100%"), (c!"height", .str c!"100%"), (c!"fill", .str c!"#1C1C1C")] [] none,
       .mk c!"defs" [] [] none] none) = emptyText := by
    have d0 : displayF32 0 = c!"0" := by decide +kernel
    have d1 : displayF32 1160 = c!"1160" := by decide +kernel
    have d2 : displayF32 f32Min = c!"-340282350000000000000000000000000000000" := by decide +kernel
    simp only [svgTextM, withNamespace, Element.toTextWith, childrenTextWith, AttrVal.displayWith, List.map_cons, List.map_nil, d0, d1, d2,
      Option.map_none]
    rfl
  simp only
  rw [this]

/-- Such a source. -/
example : ∃ m, Contains c!"erd { a.x o--o b.y }" m ∧ definitions m.entries = [] := by
  have h : ((parse c!"erd { a.x o--o b.y }").1.map fun m => definitions m.entries) = some [] := by decide +kernel
  obtain ⟨m, hm, h⟩ := Option.map_eq_some_iff.mp h
  exact ⟨m, (parse_contains _ _).mp hm, h⟩

end Seiren
