import Verif.Proofs.SvgText
/-!
# Which texts are read back

Reading the text of an element succeeds and shows the element only if every text in it is one that is read back.  The opening
brackets are counted: each element that is read takes two of them, or one and the end of a tag of an empty element, so that
none are left for the texts.
-/

namespace Seiren
open Spec

/-- Opening brackets, those of empty elements counted twice. -/
def brackets : Str → Nat
  | [] => 0
  | c :: s => (if c = '<' then (match readTag s with | some (_, _, true, _) => 2 | _ => 1) else 0) + brackets s

mutual
/-- The number of elements. -/
def Spec.Xml.size : Xml → Nat
  | .text _ => 0
  | .elem _ _ content => 1 + sizes content

/-- The same for lists. -/
def Spec.sizes : List Xml → Nat
  | [] => 0
  | x :: xs => x.size + sizes xs
end

mutual
/-- The number of elements. -/
def Element.size : Element → Nat
  | .mk _ _ children _ => 1 + Element.sizes children

/-- The same for lists. -/
def Element.sizes : List Element → Nat
  | [] => 0
  | e :: es => e.size + Element.sizes es
end

mutual
/-- Opening brackets in the texts. -/
def Element.textBrackets (esc : Str → Str) : Element → Nat
  | .mk _ _ children text => Element.textsBrackets esc children + (text.map fun t => (esc t).count '<').getD 0

/-- The same for lists. -/
def Element.textsBrackets (esc : Str → Str) : List Element → Nat
  | [] => 0
  | e :: es => e.textBrackets esc + Element.textsBrackets esc es
end

/-! ## Counting what is read -/

theorem brackets_skip {p r : Str} (h : '<' ∉ p) : brackets (p ++ r) = brackets r := by
  induction p with
  | nil => rfl
  | cons c p ih =>
    simp only [List.mem_cons, not_or] at h
    rw [List.cons_append, brackets, if_neg (Ne.symm h.1), Nat.zero_add, ih h.2]

theorem brackets_count (p r : Str) : p.count '<' + brackets r ≤ brackets (p ++ r) := by
  induction p with
  | nil => simp
  | cons c p ih =>
    rw [List.cons_append, brackets, List.count_cons]
    by_cases hc : c = '<'
    · subst hc
      simp only [beq_self_eq_true, if_true]
      split <;> omega
    · simp [hc]; omega

theorem not_mem_takeWhile {p : Char → Bool} (hp : p '<' = false) (s : Str) : '<' ∉ s.takeWhile p := by
  intro h
  have := List.all_takeWhile (p := p) (l := s)
  rw [List.all_eq_true] at this
  have := this _ h
  rw [hp] at this
  cases this

theorem brackets_dropWhile {p : Char → Bool} (hp : p '<' = false) (s : Str) : brackets (s.dropWhile p) = brackets s := by
  conv_rhs => rw [← List.takeWhile_append_dropWhile (p := p) (l := s)]
  rw [brackets_skip (not_mem_takeWhile hp s)]

theorem brackets_cons {c : Char} (hc : c ≠ '<') (s : Str) : brackets (c :: s) = brackets s :=
  brackets_skip (p := [c]) (by simpa using Ne.symm hc)

theorem decode_no_bracket : ∀ {s d : Str}, decode s = some d → '<' ∉ s := by
  intro s
  induction s using decode.induct with
  | case1 => simp
  | case2 s ih | case3 s ih | case4 s ih | case5 s ih | case6 s ih | case8 s ih =>
    intro d h
    rw [decode] at h
    obtain ⟨d', h', -⟩ := Option.map_eq_some_iff.mp h
    simp [ih h']
  | case7 s => intro d h; rw [decode] at h; cases h
  | case9 s hx ih =>
    intro d h
    rw [decode] at h
    · obtain ⟨d', h', -⟩ := Option.map_eq_some_iff.mp h
      simp [ih h']
    · exact hx
  | case10 c s h1 h2 h3 h4 h5 h6 h7 h8 hx =>
    intro d h
    rw [decode] at h
    · rw [if_pos hx] at h; cases h
    all_goals assumption
  | case11 c s h1 h2 h3 h4 h5 h6 h7 h8 hx ih =>
    intro d h
    rw [decode] at h
    · rw [if_neg hx] at h
      obtain ⟨d', h', -⟩ := Option.map_eq_some_iff.mp h
      have : c ≠ '<' := by rintro rfl; simp at hx
      simp [ih h', Ne.symm this]
    all_goals assumption

theorem brackets_readName {s n r : Str} (h : readName s = some (n, r)) : brackets r = brackets s := by
  unfold readName at h
  split at h
  · cases h
  · split at h
    · cases h
      exact brackets_dropWhile (by decide) s
    · cases h

theorem brackets_readAttrs : ∀ (fuel : Nat) {s r : Str} {as : List (Str × Str)}, readAttrs fuel s = some (as, r) →
    brackets r = brackets s
  | 0, s, r, as, h => by cases h
  | fuel + 1, s, r, as, h => by
    rw [readAttrs] at h
    have h0 := brackets_dropWhile (p := isBlank) (by decide) s
    generalize s.dropWhile isBlank = s' at *
    simp only at h
    split at h
    · cases h; exact h0
    · cases h; exact h0
    · split at h
      · cases h
      · split at h
        · cases h
        next name r1 hn =>
          have h1 := brackets_readName hn
          have h2 := brackets_dropWhile (p := isBlank) (by decide) r1
          split at h
          next r2 hr2 =>
            rw [hr2, brackets_cons (by decide)] at h2
            have h3 := brackets_dropWhile (p := isBlank) (by decide) r2
            split at h
            next quote r3 hr3 =>
              split at h
              next hquote =>
                have hq : quote ≠ '<' := by rintro rfl; simp at hquote
                rw [hr3, brackets_cons hq] at h3
                split at h
                next r4 v hr4 hv =>
                  obtain ⟨⟨as', r5⟩, h5, h6⟩ := Option.map_eq_some_iff.mp h
                  cases h6
                  have h7 := brackets_readAttrs fuel h5
                  obtain ⟨d, hd, -⟩ := Option.map_eq_some_iff.mp hv
                  have h8 := decode_no_bracket hd
                  have h9 : brackets r3 = brackets (r3.dropWhile (· != quote)) := by
                    conv_lhs => rw [← List.takeWhile_append_dropWhile (p := (· != quote)) (l := r3), brackets_skip h8]
                  rw [hr4] at h9
                  have hq' := List.head?_dropWhile_not (· != quote) r3
                  rw [hr4] at hq'
                  simp only [List.head?_cons, bne_eq_false_iff_eq] at hq'
                  rw [hq', brackets_cons hq] at h9
                  simp only
                  omega
                · cases h
              · cases h
            · cases h
          · cases h

theorem brackets_readTag {s r n : Str} {as : List (Str × Str)} {b : Bool} (h : readTag s = some (n, as, b, r)) :
    brackets r = brackets s := by
  unfold readTag at h
  split at h
  · cases h
  next name r1 hn =>
    have h1 := brackets_readName hn
    split at h
    · cases h
    next as' r2 hr2 =>
      have h2 := brackets_readAttrs _ hr2
      split at h
      · split at h
        · cases h
          rw [brackets_cons (by decide)] at h2; omega
        · cases h
          rw [brackets_cons (by decide), brackets_cons (by decide)] at h2; omega
        · cases h
      · cases h

theorem brackets_readClose {n s r : Str} (h : readClose n s = some r) : brackets s = 1 + brackets r := by
  unfold readClose at h
  split at h
  next s' =>
    split at h
    · cases h
    next m r1 hn =>
      have h1 := brackets_readName hn
      split at h
      · split at h
        next r2 hr2 =>
          cases h
          have h2 := brackets_dropWhile (p := isBlank) (by decide) r1
          rw [hr2, brackets_cons (by decide)] at h2
          have h3 : readTag ('/' :: s') = none := by
            rw [readTag, readName, List.takeWhile_cons_of_neg (by decide)]
          rw [brackets, if_pos rfl, h3, brackets_cons (by decide)]
          simp only
          omega
        · cases h
      · cases h
  · cases h

theorem brackets_read : ∀ (fuel : Nat) {s r : Str} {xs : List Xml}, readContent fuel s = some (xs, r) →
    brackets s = 2 * sizes xs + brackets r
  | 0, s, r, xs, h => by cases h
  | fuel + 1, s, r, xs, h => by
    rw [readContent.eq_def] at h
    simp only at h
    split at h
    next heq => cases heq
    · cases h; simp [sizes]
    · simp only [Option.some.injEq, Prod.mk.injEq] at h
      obtain ⟨rfl, rfl⟩ := h
      simp [sizes]
    next f s' hne heq =>
      obtain rfl : fuel = f := by omega
      split at h
      · cases h
      next name attrs r1 ht =>
        obtain ⟨⟨ys, r2⟩, h1, h2⟩ := Option.map_eq_some_iff.mp h
        cases h2
        have h3 := brackets_read fuel h1
        have h4 := brackets_readTag ht
        rw [brackets, if_pos rfl, ht]
        simp only [sizes, Xml.size]
        omega
      next name attrs r1 ht =>
        split at h
        · cases h
        next inner r2 hin =>
          split at h
          · cases h
          next r3 hcl =>
            obtain ⟨⟨ys, r4⟩, h1, h2⟩ := Option.map_eq_some_iff.mp h
            cases h2
            have h3 := brackets_read fuel h1
            have h4 := brackets_readTag ht
            have h5 := brackets_read fuel hin
            have h6 := brackets_readClose hcl
            rw [brackets, if_pos rfl, ht]
            simp only [sizes, Xml.size]
            omega
    next f c s' hne hne' heq =>
      obtain rfl : fuel = f := by omega
      split at h
      · cases h
      next t hd =>
        obtain ⟨⟨ys, r2⟩, h1, h2⟩ := Option.map_eq_some_iff.mp h
        cases h2
        have h3 := brackets_read fuel h1
        rw [brackets_dropWhile (by decide)] at h3
        simp only [sizes, Xml.size]
        omega

/-! ## Counting what is written -/

theorem sizes_elements (xs : List Xml) : sizes (elements xs) = sizes xs := by
  induction xs with
  | nil => rfl
  | cons x xs ih => cases x <;> simp [elements, sizes, Xml.size, ih]

mutual
theorem shows_size : ∀ (e : Element) (x : Xml), Shows e x → x.size = e.size
  | .mk _ _ children _, .elem _ _ content, h => by
    obtain ⟨-, -, h, -⟩ := h
    rw [Xml.size, Element.size, ← sizes_elements, showsAll_sizes _ _ h]

theorem showsAll_sizes : ∀ (es : List Element) (xs : List Xml), ShowsAll es xs → sizes xs = Element.sizes es
  | [], [], _ => rfl
  | e :: es, x :: xs, h => by
    rw [sizes, Element.sizes, shows_size e x h.1, showsAll_sizes es xs h.2]
end

theorem xmlName_no_bracket {n : Str} (h : XmlName n) : '<' ∉ n := by
  obtain ⟨c, s, rfl, -, h⟩ := h
  intro hm
  exact absurd (h _ hm) (by decide)

theorem attrs_no_bracket {as : List (Str × Str)} (h : ∀ a ∈ as, GoodAttr a) : '<' ∉ as.flatMap attrText := by
  intro hm
  obtain ⟨a, ha, hm⟩ := List.mem_flatMap.mp hm
  rw [attrText_good (h a ha)] at hm
  simp only [List.mem_cons, List.mem_append, List.not_mem_nil, or_false] at hm
  rcases hm with h1 | h1 | h1 | h1 | h1 | h1
  · exact absurd h1 (by decide)
  · exact xmlName_no_bracket (h a ha).1 h1
  · exact absurd h1 (by decide)
  · exact absurd h1 (by decide)
  · exact absurd ((h a ha).2 _ h1) (by decide)
  · exact absurd h1 (by decide)

theorem brackets_tag {name : Str} (hn : XmlName name) {as : List (Str × Str)} (ha : ∀ a ∈ as, GoodAttr a)
    (hd : (as.map (·.1)).Nodup) (r : Str) :
    brackets ('<' :: (name ++ as.flatMap attrText ++ '>' :: r)) = 1 + brackets r ∧
      brackets ('<' :: (name ++ as.flatMap attrText ++ '/' :: '>' :: r)) = 2 + brackets r := by
  obtain ⟨t1, t2⟩ := readTag_tag hn ha hd r
  have hno : '<' ∉ name ++ as.flatMap attrText := by
    simp [xmlName_no_bracket hn, attrs_no_bracket ha]
  constructor
  · rw [brackets, if_pos rfl, t1, brackets_skip hno, brackets_cons (by decide)]
  · rw [brackets, if_pos rfl, t2, brackets_skip hno, brackets_cons (by decide), brackets_cons (by decide)]

theorem brackets_close {name : Str} (hn : XmlName name) (r : Str) : brackets ('<' :: '/' :: (name ++ '>' :: r)) = 1 + brackets r :=
  brackets_readClose (readClose_close hn r)

mutual
theorem brackets_element (esc : Str → Str) {G : Str → Prop} : ∀ e : Element, GoodElement G e → ∀ rest : Str,
    2 * e.size + e.textBrackets esc + brackets rest ≤ brackets (e.toText esc ++ rest)
  | .mk name attrs children text, hg, rest => by
    obtain ⟨hname, hnd, hattrs, hch, htext⟩ := hg
    obtain ⟨g1, g2, -⟩ := shownAttrs_good hnd hattrs
    cases text with
    | none =>
      by_cases hc : children = []
      · subst hc
        have ht : (Element.mk name attrs [] none).toText esc ++ rest =
            '<' :: (name ++ (shownAttrs attrs).flatMap attrText ++ '/' :: '>' :: rest) := by
          rw [Element.toText]; simp [shownAttrs]
        rw [ht, (brackets_tag hname g1 g2 rest).2]
        simp [Element.size, Element.sizes, Element.textBrackets, Element.textsBrackets]
      · have ht : (Element.mk name attrs children none).toText esc ++ rest =
            '<' :: (name ++ (shownAttrs attrs).flatMap attrText ++
              '>' :: (childrenText esc children ++ ('\n' :: '<' :: '/' :: (name ++ '>' :: rest)))) := by
          rw [Element.toText]
          simp [shownAttrs, hc]
        rw [ht, (brackets_tag hname g1 g2 _).1]
        have h1 := brackets_children esc children hch ('\n' :: '<' :: '/' :: (name ++ '>' :: rest))
        rw [brackets_cons (by decide), brackets_close hname] at h1
        simp only [Element.size, Element.textBrackets, Option.map_none, Option.getD_none]
        omega
    | some t =>
      obtain ⟨rfl, -⟩ := htext t rfl
      have ht : (Element.mk name attrs [] (some t)).toText esc ++ rest =
          '<' :: (name ++ (shownAttrs attrs).flatMap attrText ++
            '>' :: '\n' :: (esc t ++ '\n' :: ('<' :: '/' :: (name ++ '>' :: rest)))) := by
        rw [Element.toText]
        simp [shownAttrs, childrenText]
      rw [ht, (brackets_tag hname g1 g2 _).1, brackets_cons (by decide)]
      have h1 := brackets_count (esc t) ('\n' :: ('<' :: '/' :: (name ++ '>' :: rest)))
      rw [brackets_cons (by decide), brackets_close hname] at h1
      simp only [Element.size, Element.sizes, Element.textBrackets, Element.textsBrackets, Option.map_some, Option.getD_some]
      omega

theorem brackets_children (esc : Str → Str) {G : Str → Prop} : ∀ es : List Element, GoodElements G es → ∀ rest : Str,
    2 * Element.sizes es + Element.textsBrackets esc es + brackets rest ≤ brackets (childrenText esc es ++ rest)
  | [], _, rest => by simp [Element.sizes, Element.textsBrackets, childrenText]
  | e :: es, hg, rest => by
    have ht : childrenText esc (e :: es) ++ rest = '\n' :: (e.toText esc ++ (childrenText esc es ++ rest)) := by
      rw [childrenText]; simp
    have h1 := brackets_element esc e hg.1 (childrenText esc es ++ rest)
    have h2 := brackets_children esc es hg.2 rest
    rw [ht, brackets_cons (by decide)]
    simp only [Element.sizes, Element.textsBrackets]
    omega
end

mutual
theorem texts_no_bracket (esc : Str → Str) {G : Str → Prop} : ∀ e : Element, GoodElement G e → e.textBrackets esc = 0 →
    GoodElement (fun t => '<' ∉ esc t) e
  | .mk name attrs children text, hg, h0 => by
    obtain ⟨hname, hnd, hattrs, hch, htext⟩ := hg
    simp only [Element.textBrackets] at h0
    refine ⟨hname, hnd, hattrs, texts_no_brackets esc children hch (by omega), fun t ht => ⟨(htext t ht).1, ?_⟩⟩
    rw [Option.mem_def] at ht
    subst ht
    simp only [Option.map_some, Option.getD_some] at h0
    exact List.count_eq_zero.mp (by omega)

theorem texts_no_brackets (esc : Str → Str) {G : Str → Prop} : ∀ es : List Element, GoodElements G es → Element.textsBrackets esc es = 0 →
    GoodElements (fun t => '<' ∉ esc t) es
  | [], _, _ => trivial
  | e :: es, hg, h0 => by
    simp only [Element.textsBrackets] at h0
    exact ⟨texts_no_bracket esc e hg.1 (by omega), texts_no_brackets esc es hg.2 (by omega)⟩
end

/-! ## What is read, once the texts have no brackets -/

theorem readContent_text_inv {fuel : Nat} {s r : Str} (hs : '<' ∉ s) (hne : s ≠ []) (hr : ∀ c ∈ r.head?, c = '<') {xs : List Xml} {r' : Str}
    (h : readContent fuel (s ++ r) = some (xs, r')) :
    ∃ d xs' f, decode s = some d ∧ xs = .text d :: xs' ∧ readContent f r = some (xs', r') := by
  obtain ⟨c, s, rfl⟩ := List.exists_cons_of_ne_nil hne
  obtain ⟨e1, e2⟩ := span_append (p := (· != '<')) (n := c :: s) (rest := r)
    (fun x hx => by simp only [bne_iff_ne, ne_eq]; rintro rfl; exact hs hx) (fun x hx => by simp [hr x hx])
  have hc : c ≠ '<' := by rintro rfl; simp at hs
  cases fuel with
  | zero => cases h
  | succ f =>
    rw [List.cons_append] at e1 e2 h
    rw [readContent] at h
    · rw [e1, e2] at h
      split at h
      · cases h
      next d hd =>
        obtain ⟨⟨ys, r2⟩, h1, h2⟩ := Option.map_eq_some_iff.mp h
        cases h2
        exact ⟨d, ys, f, hd, rfl, h1⟩
    · intro t e _; exact hc e
    · intro e; exact hc e

theorem readContent_close {fuel : Nat} {s : Str} {xs : List Xml} {r : Str} (h : readContent fuel ('<' :: '/' :: s) = some (xs, r)) :
    xs = [] ∧ r = '<' :: '/' :: s := by
  cases fuel with
  | zero => cases h
  | succ f =>
    rw [readContent] at h
    simp only [Option.some.injEq, Prod.mk.injEq] at h
    exact ⟨h.1.symm, h.2.symm⟩

mutual
theorem read_element_inv (esc : Str → Str) : ∀ e : Element, GoodElement (fun t => '<' ∉ esc t) e →
    ∀ (fuel : Nat) (rest : Str) (xs : List Xml) (r : Str), readContent fuel (e.toText esc ++ rest) = some (xs, r) →
      ∃ n as c xs' f, xs = .elem n as c :: xs' ∧ readContent f rest = some (xs', r) ∧
        (Shows e (.elem n as c) → GoodElement (GoodText esc) e)
  | .mk name attrs children text, hg, fuel, rest, xs, r, h => by
    obtain ⟨hname, hnd, hattrs, hch, htext⟩ := hg
    obtain ⟨g1, g2, -⟩ := shownAttrs_good hnd hattrs
    have hhead : ∀ (u v : Str), name ++ u ≠ '/' :: v := by
      intro u v e
      exact (name_head_not_blank hname u).2 v |>.2 e
    obtain ⟨fuel, rfl⟩ : ∃ f, fuel = f + 1 := by
      cases fuel with
      | zero => cases h
      | succ f => exact ⟨f, rfl⟩
    cases text with
    | none =>
      by_cases hc : children = []
      · subst hc
        have ht : (Element.mk name attrs [] none).toText esc ++ rest =
            '<' :: (name ++ (shownAttrs attrs).flatMap attrText ++ '/' :: '>' :: rest) := by
          rw [Element.toText]; simp [shownAttrs]
        rw [ht, readContent_elem (by intro u; rw [List.append_assoc]; exact hhead _ _), (readTag_tag hname g1 g2 rest).2] at h
        obtain ⟨⟨ys, r2⟩, h1, h2⟩ := Option.map_eq_some_iff.mp h
        cases h2
        exact ⟨_, _, _, ys, fuel, rfl, h1, fun _ => ⟨hname, hnd, hattrs, trivial, by simp⟩⟩
      · have ht : (Element.mk name attrs children none).toText esc ++ rest =
            '<' :: (name ++ (shownAttrs attrs).flatMap attrText ++
              '>' :: (childrenText esc children ++ ('\n' :: '<' :: '/' :: (name ++ '>' :: rest)))) := by
          rw [Element.toText]
          simp [shownAttrs, hc]
        rw [ht, readContent_elem (by intro u; rw [List.append_assoc]; exact hhead _ _), (readTag_tag hname g1 g2 _).1] at h
        simp only at h
        split at h
        · cases h
        next inner r2 hin =>
          obtain ⟨content, xs', f, rfl, h1, hgood⟩ := read_children_inv esc children hch _ _ _ _ hin
          obtain ⟨d, ys, f', hd, rfl, h2⟩ := readContent_text_inv (s := c!"\n") (by decide) (by decide) (by simp) h1
          obtain ⟨rfl, rfl⟩ := readContent_close h2
          rw [readClose_close hname] at h
          obtain ⟨⟨zs, r3⟩, h3, h4⟩ := Option.map_eq_some_iff.mp h
          cases h4
          refine ⟨_, _, _, zs, fuel, rfl, h3, fun hs => ?_⟩
          obtain ⟨-, -, hs, -⟩ := hs
          rw [elements_append] at hs
          simp only [elements, List.append_nil] at hs
          exact ⟨hname, hnd, hattrs, hgood hs, by simp⟩
    | some t =>
      obtain ⟨rfl, hlt⟩ := htext t rfl
      have ht : (Element.mk name attrs [] (some t)).toText esc ++ rest =
          '<' :: (name ++ (shownAttrs attrs).flatMap attrText ++
            '>' :: ((c!"\n" ++ esc t ++ c!"\n") ++ ('<' :: '/' :: (name ++ '>' :: rest)))) := by
        rw [Element.toText]
        simp [shownAttrs, childrenText]
      rw [ht, readContent_elem (by intro u; rw [List.append_assoc]; exact hhead _ _), (readTag_tag hname g1 g2 _).1] at h
      simp only at h
      split at h
      · cases h
      next inner r2 hin =>
        have hno : '<' ∉ c!"\n" ++ esc t ++ c!"\n" := by
          simp only [List.mem_append, List.mem_singleton, not_or]
          exact ⟨⟨by decide, hlt⟩, by decide⟩
        obtain ⟨d, ys, f', hd, rfl, h2⟩ := readContent_text_inv hno (by simp) (by simp) hin
        obtain ⟨rfl, rfl⟩ := readContent_close h2
        rw [readClose_close hname] at h
        obtain ⟨⟨zs, r3⟩, h3, h4⟩ := Option.map_eq_some_iff.mp h
        cases h4
        refine ⟨_, _, _, zs, fuel, rfl, h3, fun hs => ?_⟩
        obtain ⟨-, -, -, hs⟩ := hs
        simp only [characters, List.append_nil] at hs
        refine ⟨hname, hnd, hattrs, trivial, ?_⟩
        intro t' ht'
        cases ht'
        refine ⟨rfl, ?_, ?_⟩
        · rintro c hc rfl; exact hlt hc
        · rw [hd, hs]

theorem read_children_inv (esc : Str → Str) : ∀ es : List Element, GoodElements (fun t => '<' ∉ esc t) es →
    ∀ (fuel : Nat) (rest : Str) (xs : List Xml) (r : Str), readContent fuel (childrenText esc es ++ rest) = some (xs, r) →
      ∃ content xs' f, xs = content ++ xs' ∧ readContent f rest = some (xs', r) ∧
        (ShowsAll es (elements content) → GoodElements (GoodText esc) es)
  | [], _, fuel, rest, xs, r, h => ⟨[], xs, fuel, rfl, by rwa [childrenText, List.nil_append] at h, fun _ => trivial⟩
  | e :: es, hg, fuel, rest, xs, r, h => by
    have ht : childrenText esc (e :: es) ++ rest = c!"\n" ++ (e.toText esc ++ (childrenText esc es ++ rest)) := by
      rw [childrenText]; simp
    have hname : XmlName e.name := by
      obtain ⟨name, attrs, children, text⟩ := e
      exact hg.1.1
    obtain ⟨t, ht1, -⟩ := toText_head esc e hname
    rw [ht] at h
    obtain ⟨d, ys, f, hd, rfl, h1⟩ := readContent_text_inv (by decide) (by decide) (by rw [ht1]; simp) h
    obtain ⟨n, as, c, zs, f', rfl, h2, hgood⟩ := read_element_inv esc e hg.1 _ _ _ _ h1
    obtain ⟨content, ws, f'', rfl, h3, hgoods⟩ := read_children_inv esc es hg.2 _ _ _ _ h2
    exact ⟨.text d :: .elem n as c :: content, ws, f'', rfl, h3, fun hs => ⟨hgood hs.1, hgoods hs.2⟩⟩
end

/-- The text of an element is read back as a tree that shows the element if and only if the texts are read back. -/
theorem readXml_exact (esc : Str → Str) {G : Str → Prop} (e : Element) (h : GoodElement G e) :
    (∃ x, readXml (e.toText esc) = some x ∧ Shows e x) ↔ GoodElement (GoodText esc) e := by
  refine ⟨?_, readXml_toText esc e⟩
  rintro ⟨x, hx, hs⟩
  unfold readXml at hx
  split at hx
  next content hc =>
    split at hx
    · split at hx
      next y hy =>
        cases hx
        have h1 := brackets_read _ hc
        have h2 : sizes content = e.size := by
          rw [← sizes_elements, hy, ← shows_size e x hs]; simp [sizes]
        have h3 := brackets_element esc e h []
        rw [List.append_nil] at h3
        have h4 := texts_no_bracket esc e h (by omega)
        rw [← List.append_nil (e.toText esc)] at hc
        obtain ⟨n, as, c, xs', f, rfl, h5, h6⟩ := read_element_inv esc e h4 _ _ _ _ hc
        simp only [elements, List.cons.injEq] at hy
        exact h6 (hy.1 ▸ hs)
      · cases hx
    · cases hx
  · cases hx

end Seiren
