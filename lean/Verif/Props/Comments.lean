import Verif.Props.Cli
import Verif.Props.RoundTrip
import Verif.Spec.Skipped
/-! # C56, continued: exactly when the text of a comment matters -/

namespace Seiren
open Spec

/-- No character of a lexeme that does not begin with a back quote is a slash. -/
theorem lexeme_no_slash {t : Token} {w : Str} {e : Nat} (h : Lexeme t w e) (hq : w.head? ≠ some '`') : '/' ∉ w := by
  have word : IsWord w → '/' ∉ w := by
    rintro ⟨c, cs, rfl, hc, hcs⟩ hm
    have hns : ¬ WordChar '/' := by simp only [WordChar, WordStart]; decide
    rcases List.mem_cons.mp hm with rfl | hm
    · exact hns (.inl hc)
    · exact hns (hcs _ hm)
  cases h with
  | edge => decide
  | keyword h => exact word (keyword_isWord h)
  | word h => exact word h
  | quoted h => simp at hq
  | ctrl h =>
    simp only [List.mem_cons, List.not_mem_nil, or_false] at h ⊢
    rcases h with rfl | rfl | rfl | rfl <;> decide
  | newline => decide
  | crlf => decide

/-- A slash never continues a token. -/
theorem reads_extend {t : Token} {w : Str} {e : Nat} {r c : Str} (h : Reads t w e r) (hc : c.head? = some '/') : Reads t w e (r ++ c) := by
  obtain ⟨c', rfl⟩ : ∃ c', c = '/' :: c' := by
    cases c with
    | nil => simp at hc
    | cons d c => simp at hc; exact ⟨c, by rw [hc]⟩
  refine ⟨h.1, fun hw => ?_⟩
  obtain ⟨h1, h2⟩ := h.2 hw
  have hns : ¬ WordChar '/' := by simp only [WordChar, WordStart]; decide
  constructor
  · cases r with
    | nil => intro d hd; simp at hd; rw [← hd]; exact hns
    | cons d r => exact h1
  · rintro ⟨ho, hp⟩
    refine h2 ⟨ho, ?_⟩
    rcases r with _ | ⟨a, _ | ⟨b, _ | ⟨d, r⟩⟩⟩
    · simp at hp
    · simp at hp
    · simp at hp
    · simpa using hp

/-- If a slash occurs in the spelling of a name, what is before it is a spelling, or one followed by a backslash. -/
theorem pieces_slash {n v : Str} {e : Nat} (h : Pieces n v e) {u x : Str} (he : v = u ++ '/' :: x) :
    ∃ n' w e', Pieces n' w e' ∧ (u = w ∨ u = w ++ ['\\']) := by
  induction h generalizing u with
  | nil => simp at he
  | cons hp h ih =>
    rename_i c w e s v k
    rcases List.append_eq_append_iff.mp he with ⟨y, h1, h2⟩ | ⟨y, h1, h2⟩
    · obtain ⟨n', w', e', h3, h4⟩ := ih h2
      refine ⟨_, _, _, .cons hp h3, ?_⟩
      rcases h4 with rfl | rfl
      · exact .inl h1
      · exact .inr (by rw [h1]; simp)
    · cases y with
      | nil =>
        simp only [List.append_nil] at h1
        subst h1
        exact ⟨[c], w, e, by simpa using Pieces.cons hp .nil, .inl rfl⟩
      | cons d y =>
        simp only [List.cons_append, List.cons.injEq] at h2
        obtain ⟨rfl, -⟩ := h2
        have hex : ∀ {i}, ¬ HexDigit '/' i := by
          intro i hi
          rcases hi with hi | hi
          · exact absurd (List.mem_of_getElem? hi) (by decide)
          · exact absurd (List.mem_of_getElem? hi) (by decide)
        cases hp with
        | raw c =>
          cases u with
          | nil => exact ⟨[], [], 0, .nil, .inl rfl⟩
          | cons d' u => simp at h1
        | escape x c =>
          rcases u with _ | ⟨d1, _ | ⟨d2, u⟩⟩
          · exact ⟨[], [], 0, .nil, .inl rfl⟩
          · simp only [List.cons_append, List.nil_append, List.cons.injEq] at h1
            exact ⟨[], [], 0, .nil, .inr (by rw [← h1.1]; rfl)⟩
          · simp at h1
        | unicode a b c d i j k l ha hb hc hd hs =>
          rcases u with _ | ⟨d1, _ | ⟨d2, _ | ⟨d3, _ | ⟨d4, _ | ⟨d5, _ | ⟨d6, u⟩⟩⟩⟩⟩⟩
          · exact ⟨[], [], 0, .nil, .inl rfl⟩
          · simp at h1
          · simp only [List.cons_append, List.nil_append, List.cons.injEq] at h1
            exact absurd (h1.2.2.1 ▸ ha) hex
          · simp only [List.cons_append, List.nil_append, List.cons.injEq] at h1
            exact absurd (h1.2.2.2.1 ▸ hb) hex
          · simp only [List.cons_append, List.nil_append, List.cons.injEq] at h1
            exact absurd (h1.2.2.2.2.1 ▸ hc) hex
          · simp only [List.cons_append, List.nil_append, List.cons.injEq] at h1
            exact absurd (h1.2.2.2.2.2.1 ▸ hd) hex
          · simp at h1
        | surrogate a b c d i j k l ha hb hc hd hs =>
          rcases u with _ | ⟨d1, _ | ⟨d2, _ | ⟨d3, _ | ⟨d4, _ | ⟨d5, _ | ⟨d6, u⟩⟩⟩⟩⟩⟩
          · exact ⟨[], [], 0, .nil, .inl rfl⟩
          · simp at h1
          · simp only [List.cons_append, List.nil_append, List.cons.injEq] at h1
            exact absurd (h1.2.2.1 ▸ ha) hex
          · simp only [List.cons_append, List.nil_append, List.cons.injEq] at h1
            exact absurd (h1.2.2.2.1 ▸ hb) hex
          · simp only [List.cons_append, List.nil_append, List.cons.injEq] at h1
            exact absurd (h1.2.2.2.2.1 ▸ hc) hex
          · simp only [List.cons_append, List.nil_append, List.cons.injEq] at h1
            exact absurd (h1.2.2.2.2.2.1 ▸ hd) hex
          · simp at h1

/-- What cannot be read cannot be read either if a slash follows, unless it is an open quotation. -/
theorem unreadable_extend {z c : Str} (hz : z ≠ []) (hq : ¬ OpenQuote z) (hc : c.head? = some '/') (h : Unreadable z) : Unreadable (z ++ c) := by
  intro t w e r he hr
  obtain ⟨c', rfl⟩ : ∃ c', c = '/' :: c' := by
    cases c with
    | nil => simp at hc
    | cons d c => simp at hc; exact ⟨c, by rw [hc]⟩
  rcases List.append_eq_append_iff.mp he with ⟨x, hw, hc'⟩ | ⟨x, hz', hr'⟩
  · -- the lexeme goes beyond `z`
    cases x with
    | nil =>
      simp only [List.append_nil] at hw
      subst hw
      exact h t w e [] (by simp) ⟨hr.1, fun _ => by simp⟩
    | cons d x =>
      simp only [List.cons_append, List.cons.injEq] at hc'
      obtain ⟨rfl, -⟩ := hc'
      by_cases hh : w.head? = some '`'
      · apply hq
        cases z with
        | nil => exact absurd rfl hz
        | cons b z =>
          obtain rfl : b = '`' := by rw [hw] at hh; simpa using hh
          have key : ∀ {n v : Str} {k : Nat}, Pieces n v k → w = '`' :: (v ++ ['`']) → OpenQuote ('`' :: z) := by
            intro n v k hp hv
            rw [hw] at hv
            simp only [List.cons_append, List.cons.injEq, true_and] at hv
            rcases List.eq_nil_or_concat x with rfl | ⟨x', d, rfl⟩
            · have := congrArg List.getLast? hv
              simp at this
            · have h1 : v = z ++ '/' :: x' := by
                have h2 : (z ++ '/' :: x') ++ [d] = v ++ ['`'] := by simpa using hv
                exact (List.append_inj' h2 rfl).1.symm
              obtain ⟨n', w', e', h3, h4⟩ := pieces_slash hp h1
              exact ⟨n', w', e', h3, by rcases h4 with rfl | rfl <;> simp⟩
          have hr1 := hr.1
          generalize w = w0 at *
          cases hr1 with
          | quoted h => exact key h rfl
          | edge => simp at hh
          | keyword h =>
            exfalso
            revert hh
            simp only [keywords, List.mem_cons, List.not_mem_nil, or_false, Prod.mk.injEq] at h
            rcases h with ⟨rfl, -⟩ | ⟨rfl, -⟩ | ⟨rfl, -⟩ | ⟨rfl, -⟩ | ⟨rfl, -⟩ | ⟨rfl, -⟩ | ⟨rfl, -⟩ <;> decide
          | word h =>
            obtain ⟨c, cs, rfl, hc, -⟩ := h
            exfalso
            simp only [List.head?_cons, Option.some.injEq] at hh
            subst hh
            revert hc
            simp only [WordStart]; decide
          | ctrl h =>
            simp only [List.head?_cons, Option.some.injEq] at hh
            subst hh
            simp at h
          | newline => simp at hh
          | crlf => simp at hh
      · exact lexeme_no_slash hr.1 hh (by rw [hw]; simp)
  · subst hz'
    refine h t w e x rfl ⟨hr.1, fun hw => ?_⟩
    obtain ⟨h1, h2⟩ := hr.2 hw
    subst hr'
    cases x with
    | nil => simp
    | cons d x =>
      refine ⟨h1, fun ⟨ho, hp⟩ => h2 ⟨ho, hp.trans (List.prefix_append _ _)⟩⟩

theorem gap_extend {g r c : Str} (h : Gap g r) (hr : r ≠ []) : Gap g (r ++ c) :=
  gap_follow h (by cases r with
    | nil => exact absurd rfl hr
    | cons d r => rfl)

/-- Something that is not a gap stays so if two slashes follow, unless it is a slash. -/
theorem tight_extend {x c : Str} (hx : x ≠ []) (h : Tight x) (hx' : x = ['/'] → c.head? ≠ some '/') : Tight (x ++ c) := by
  constructor
  · cases x with
    | nil => exact absurd rfl hx
    | cons d x => exact h.1
  · intro hp
    rcases x with _ | ⟨a, _ | ⟨b, x⟩⟩
    · exact hx rfl
    · simp only [List.cons_append, List.nil_append, List.cons_prefix_cons] at hp
      refine hx' (by rw [← hp.1]) ?_
      obtain ⟨d, hd⟩ := hp.2
      rw [← hd]; rfl
    · exact h.2 (by simpa using hp)

/-- A long suffix of `x ++ m` is a suffix of `x`, followed by `m`. -/
theorem long_suffix {x m y y' : Str} (hne : y ≠ []) (hl : (y ++ m).length ≤ y'.length) (h : y' <:+ x ++ m) :
    ∃ q, q <:+ x ∧ q ≠ [] ∧ y' = q ++ m := by
  obtain ⟨p, hp⟩ := h
  have h9 := List.length_pos_iff.mpr hne
  rw [List.length_append] at hl
  rcases List.append_eq_append_iff.mp hp with ⟨q, h6, h7⟩ | ⟨q, h6, h7⟩
  · refine ⟨q, ⟨p, h6.symm⟩, ?_, h7⟩
    rintro rfl
    rw [h7, List.nil_append] at hl
    omega
  · exfalso
    have h8 := congrArg List.length h7
    rw [List.length_append] at h8
    omega

/-- Up to its last token a text without open quotations is read in the same way if something follows that begins with a slash. -/
theorem scan_extend {pos : Nat} {a : Str} {ts : List (Token × Span)} {errs : List LexError} (h : Scan pos a ts errs)
    (hq : ∀ s, Skipped a s → ¬ OpenQuote s) :
    ∃ v g x, a = v ++ (g ++ x) ∧ (ts.getLast?.map fun x => x.2.stop).getD pos = pos + v.length ∧ Gap g x ∧ Tight x ∧
      (∀ s, s <:+ x → Unreadable s ∧ ¬ OpenQuote s) ∧
      ∀ c us es, c.head? = some '/' → Scan (pos + v.length) (g ++ x ++ c) us es → Scan pos (a ++ c) (ts ++ us) (errs ++ es) := by
  have last : ∀ {x : Token × Span} {ts : List (Token × Span)} {p q : Nat}, (ts.getLast?.map fun x => x.2.stop).getD x.2.stop = q →
      ((x :: ts).getLast?.map fun x => x.2.stop).getD p = q := by
    intro x ts p q hx
    cases ts with
    | nil => simpa using hx
    | cons y ts => simpa [List.getLast?_cons] using hx
  induction h with
  | stop hg ht hu =>
    rename_i pos g r
    refine ⟨[], g, r, rfl, rfl, hg, ht, fun s hs => ⟨hu s hs, ?_⟩, fun c us es _ hs => hs⟩
    by_cases hne : s = []
    · subst hne
      rintro ⟨n, w, e, -, h | h⟩ <;> simp at h
    · exact hq s (.here hg ht hs hne fun y hy _ => hu y hy)
  | token hg hw h ih =>
    rename_i pos g w r t e ts errs
    obtain ⟨v, g', x', rfl, h1, h2, h2', h2'', h3⟩ := ih fun s hs =>
      hq s (.later (x := []) hg (by simp) (fun y hy hne => absurd (List.suffix_nil.mp hy) hne) hw hs)
    refine ⟨g ++ w ++ v, g', x', by simp, last (by simpa [Nat.add_assoc] using h1), h2, h2', h2'', fun c us es hc hs => ?_⟩
    have h4 := h3 c us es hc (by simpa [Nat.add_assoc] using hs)
    have h5 := Scan.token (pos := pos) (g := g) (w := w) (by
      have := gap_extend (c := c) hg (by simp [lexeme_ne hw.1])
      simpa using this) (reads_extend hw hc) h4
    simpa using h5
  | skip hg ht hx hu hw h ih =>
    rename_i pos g x w r t e ts errs
    obtain ⟨v, g', x', rfl, h1, h2, h2', h2'', h3⟩ := ih fun s hs => hq s (.later hg (fun _ => ht) hu hw hs)
    refine ⟨g ++ x ++ w ++ v, g', x', by simp, last (by simpa [Nat.add_assoc] using h1), h2, h2', h2'', fun c us es hc hs => ?_⟩
    have h4 := h3 c us es hc (by simpa [Nat.add_assoc] using hs)
    have h5 := Scan.skip (pos := pos) (g := g) (x := x) (w := w) (by
        have := gap_extend (c := c) hg (by simp [hx])
        simpa using this) (by
        have := tight_extend (c := c) (by simp [hx]) ht (by
          intro h
          rcases x with _ | ⟨a, x⟩
          · exact absurd rfl hx
          · have h0 := lexeme_ne hw.1
            simp at h
            exact absurd h.2.2.1 h0)
        simpa using this) hx (by
        intro y hy hne
        have := unreadable_extend (z := y ++ (w ++ (v ++ (g' ++ x')))) (c := c) (by simp [hne])
          (hq _ (.here hg ht (by
            obtain ⟨p, hp⟩ := hy
            exact ⟨p, by rw [← hp]; simp⟩) (by simp [hne]) (by
            intro y' hy' hl
            obtain ⟨q, h6, h7, rfl⟩ := long_suffix hne hl hy'
            exact hu q h6 h7))) hc (hu y hy hne)
        simpa using this) (reads_extend hw hc) h4
    simpa using h5

theorem pieces_append {n v n' v' : Str} {e e' : Nat} (h : Pieces n v e) (h' : Pieces n' v' e') : Pieces (n ++ n') (v ++ v') (e + e') := by
  induction h with
  | nil => simpa using h'
  | cons hp h ih => simpa [Nat.add_assoc] using Pieces.cons hp ih

/-- An open quotation can be closed. -/
theorem open_close {s : Str} (h : OpenQuote s) : ∃ n e, ∀ q : Str, (∀ c ∈ q, c ≠ '\\' ∧ c ≠ '`') →
    Lexeme (.ident (n ++ c!"//" ++ q)) (s ++ (c!"//" ++ (q ++ ['`']))) e := by
  obtain ⟨n, w, e, hp, h⟩ := h
  have plain : ∀ q : Str, (∀ c ∈ q, c ≠ '\\' ∧ c ≠ '`') → Pieces q q 0 := by
    intro q hq
    induction q with
    | nil => exact .nil
    | cons c q ih =>
      exact .cons (e := 0) (n := 0) (.raw c (hq c (by simp)).1 (hq c (by simp)).2) (ih fun d hd => hq d (by simp [hd]))
  refine ⟨n, e, fun q hq => ?_⟩
  rcases h with rfl | rfl
  · have := Lexeme.quoted (pieces_append hp (plain (c!"//" ++ q) (by
      intro c hc
      rcases List.mem_append.mp hc with hc | hc
      · simp at hc; rw [hc]; decide
      · exact hq c hc)))
    simpa using this
  · have h1 : Pieces (c!"//" ++ q) (c!"\\//" ++ q) 0 := by
      have := Pieces.cons (.escape '/' '/' (by decide)) (plain ('/' :: q) (by
        intro c hc
        rcases List.mem_cons.mp hc with rfl | hc
        · decide
        · exact hq c hc))
      simpa using this
    have := Lexeme.quoted (pieces_append hp h1)
    simpa using this

/-- A quotation opened where characters are skipped is closed by a back quote behind the two slashes. -/
theorem close_here {g z s : Str} (hg : Gap g z) (ht : Tight z) (hs : s <:+ z) (hu : ∀ y, y <:+ z → s.length ≤ y.length → Unreadable y)
    (ho : OpenQuote s) : ∃ n, ∀ (pos : Nat) (q b : Str), (∀ c ∈ q, c ≠ '\\' ∧ c ≠ '`') → ∃ sp us es,
      Scan pos (g ++ z ++ (c!"//" ++ (q ++ ('`' :: b)))) ((.ident (n ++ c!"//" ++ q), sp) :: us) es := by
  obtain ⟨x, s, rfl, ho, hmin⟩ : ∃ x s', z = x ++ s' ∧ (OpenQuote s' ∧ ∀ y, y <:+ z → s'.length ≤ y.length → Unreadable y) ∧
      ∀ y, y <:+ x → y ≠ [] → ¬ OpenQuote (y ++ s') := by
    obtain ⟨x, hx⟩ := hs
    induction hk : x.length using Nat.strong_induction_on generalizing x s with
    | _ k ih =>
      by_cases hy : ∃ y, y <:+ x ∧ y ≠ [] ∧ OpenQuote (y ++ s)
      · obtain ⟨y, ⟨x', hx'⟩, hne, ho'⟩ := hy
        have hl := List.length_pos_iff.mpr hne
        have hl2 := congrArg List.length hx'
        rw [List.length_append] at hl2
        exact ih x'.length (by omega) (s := y ++ s) (fun y' hy' hl' => hu y' hy' (by rw [List.length_append] at hl'; omega)) ho' x'
          (by rw [← hx, ← hx']; simp) rfl
      · exact ⟨x, s, hx.symm, ⟨ho, hu⟩, fun y h1 h2 h3 => hy ⟨y, h1, h2, h3⟩⟩
  obtain ⟨ho, hu⟩ := ho
  have hne : s ≠ [] := by
    rintro rfl
    obtain ⟨n, w, e, -, h | h⟩ := ho <;> simp at h
  have hh : ∀ c : Str, ¬ IsWord (s ++ c) := by
    intro c
    obtain ⟨n, w, e, -, rfl | rfl⟩ := ho <;> exact not_word_of (by decide) _
  obtain ⟨n, e, hn⟩ := open_close ho
  refine ⟨n, fun pos q b hq => ?_⟩
  have hlex := hn q hq
  by_cases hx : x = []
  · subst hx
    obtain ⟨us, es, hs⟩ := scan_total (pos + g.length + (s ++ (c!"//" ++ (q ++ ['`']))).length) b
    have h1 := Scan.token (pos := pos) (g := g) (w := s ++ (c!"//" ++ (q ++ ['`']))) (r := b) (by
      have := gap_extend (c := c!"//" ++ (q ++ ('`' :: b))) hg (by simp [hne])
      simpa using this) ⟨hlex, fun h => absurd h (hh _)⟩ hs
    exact ⟨_, _, _, by simpa using h1⟩
  · obtain ⟨us, es, hs⟩ := scan_total (pos + g.length + x.length + (s ++ (c!"//" ++ (q ++ ['`']))).length) b
    have h1 := Scan.skip (pos := pos) (g := g) (x := x) (w := s ++ (c!"//" ++ (q ++ ['`']))) (r := b) (by
        have := gap_extend (c := c!"//" ++ (q ++ ('`' :: b))) hg (by simp [hne])
        simpa using this) (by
        have := tight_extend (c := c!"//" ++ (q ++ ('`' :: b))) (by simp [hne]) ht (by
          intro h
          rcases x with _ | ⟨a, x⟩
          · exact absurd rfl hx
          · simp at h
            exact absurd h.2.2 hne)
        simpa using this) hx (by
        intro y hy hyne
        have := unreadable_extend (z := y ++ s) (c := c!"//" ++ (q ++ ('`' :: b))) (by simp [hne]) (hmin y hy hyne) (by simp)
          (hu _ (by
            obtain ⟨p, hp⟩ := hy
            exact ⟨p, by rw [← hp]; simp⟩) (by simp))
        simpa using this) ⟨hlex, fun h => absurd h (hh _)⟩ hs
    exact ⟨_, _, _, by simpa using h1⟩

/-- An open quotation is closed by a back quote behind the two slashes. -/
theorem close_quote {a s : Str} (h : Skipped a s) (ho : OpenQuote s) : ∃ vs n, ∀ (pos : Nat) (q b : Str), (∀ c ∈ q, c ≠ '\\' ∧ c ≠ '`') →
    ∃ ts us es, Scan pos (a ++ (c!"//" ++ (q ++ ('`' :: b)))) (ts ++ us) es ∧ ts.map Prod.fst = vs ++ [.ident (n ++ c!"//" ++ q)] := by
  induction h with
  | here hg ht hs hne hu =>
    obtain ⟨n, hn⟩ := close_here hg ht hs hu ho
    refine ⟨[], n, fun pos q b hq => ?_⟩
    obtain ⟨sp, us, es, h⟩ := hn pos q b hq
    exact ⟨[_], us, es, h, rfl⟩
  | later hg ht hu hw h ih =>
    rename_i g x w r s t e
    by_cases hy : ∃ y, y <:+ x ∧ y ≠ [] ∧ OpenQuote (y ++ (w ++ r))
    · obtain ⟨y, hy, hne, ho'⟩ := hy
      have hx : x ≠ [] := by
        rintro rfl
        exact hne (List.suffix_nil.mp hy)
      obtain ⟨n, hn⟩ := close_here (s := y ++ (w ++ r)) hg (ht hx) (by
        obtain ⟨p, hp⟩ := hy
        exact ⟨p, by rw [← hp]; simp⟩) (by
        intro y' hy' hl
        obtain ⟨q, h6, h7, rfl⟩ := long_suffix hne hl hy'
        exact hu q h6 h7) ho'
      refine ⟨[], n, fun pos q b hq => ?_⟩
      obtain ⟨sp, us, es, h⟩ := hn pos q b hq
      exact ⟨[_], us, es, h, rfl⟩
    · obtain ⟨vs, n, hn⟩ := ih ho
      refine ⟨t :: vs, n, fun pos q b hq => ?_⟩
      by_cases hx : x = []
      · subst hx
        obtain ⟨ts, us, es, h1, h2⟩ := hn (pos + g.length + w.length) q b hq
        have h3 := Scan.token (pos := pos) (g := g) (w := w) (by
          have := gap_extend (c := c!"//" ++ (q ++ ('`' :: b))) hg (by simp [lexeme_ne hw.1])
          simpa using this) (reads_extend hw (by simp)) h1
        exact ⟨_ :: ts, us, _, by simpa using h3, by simp [h2]⟩
      · obtain ⟨ts, us, es, h1, h2⟩ := hn (pos + g.length + x.length + w.length) q b hq
        have h3 := Scan.skip (pos := pos) (g := g) (x := x) (w := w) (by
            have := gap_extend (c := c!"//" ++ (q ++ ('`' :: b))) hg (by simp [hx])
            simpa using this) (by
            have := tight_extend (c := c!"//" ++ (q ++ ('`' :: b))) (by simp [hx]) (ht hx) (by
              intro h
              rcases x with _ | ⟨a, x⟩
              · exact absurd rfl hx
              · have h0 := lexeme_ne hw.1
                simp at h
                exact absurd h.2.2.1 h0)
            simpa using this) hx (by
            intro y hy' hne
            have := unreadable_extend (z := y ++ (w ++ r)) (c := c!"//" ++ (q ++ ('`' :: b))) (by simp [hne])
              (fun h => hy ⟨y, hy', hne, h⟩) (by simp) (hu y hy' hne)
            simpa using this) (reads_extend hw (by simp)) h1
        exact ⟨_ :: ts, us, _, by simpa using h3, by simp [h2]⟩

/-- The tokens read from a source, without their places. -/
def Spec.tokensOf (src : Str) : List Token := ((tokenize src).1.getD []).map Prod.fst

/-- What is left of a source behind its last token. -/
def Spec.leftover (src : Str) : Str := src.drop ((((tokenize src).1.getD []).getLast?.map fun x => x.2.stop).getD 0)

theorem tokensOf_scan {src : Str} {ts : List (Token × Span)} {errs : List LexError} (h : Scan 0 src ts errs) :
    tokensOf src = ts.map Prod.fst := by
  simp [tokensOf, (tokenize_exact _ _ _).mpr h]

theorem slash_unreadable (r : Str) : Unreadable ('/' :: r) := by
  intro t w e r' he hr
  have hne := lexeme_ne hr.1
  cases w with
  | nil => exact hne rfl
  | cons c w =>
    simp only [List.cons_append, List.cons.injEq] at he
    obtain ⟨rfl, -⟩ := he
    exact lexeme_no_slash hr.1 (by simp) (by simp)

/-- Behind something that cannot be read, the text of a comment is read. -/
theorem scan_bad_comment {g x b : Str} {pos : Nat} (hg : Gap g x) (hx : x ≠ []) (hx' : x ≠ ['/']) (ht : Tight x)
    (hu : ∀ s, s <:+ x → Unreadable s ∧ ¬ OpenQuote s) (hb : ∀ c ∈ b.head?, c = '\n') {us : List (Token × Span)} {es : List LexError}
    (hs : Scan 0 b us es) :
    (∃ ts errs, Scan pos (g ++ x ++ ('/' :: '/' :: b)) ts errs ∧ ts.map Prod.fst = us.map Prod.fst) ∧
    (∃ ts errs, Scan pos (g ++ x ++ ('/' :: '/' :: 'z' :: b)) ts errs ∧ ts.map Prod.fst = .ident c!"z" :: us.map Prod.fst) := by
  have gap' : ∀ c : Str, Gap g (x ++ c) := fun c => gap_extend hg hx
  have tight' : ∀ c : Str, Tight (x ++ '/' :: c) := by
    intro c
    constructor
    · cases x with
      | nil => exact absurd rfl hx
      | cons d x => exact ht.1
    · intro hp
      rcases x with _ | ⟨a, _ | ⟨b, x⟩⟩
      · exact hx rfl
      · simp only [List.cons_append, List.nil_append, List.cons_prefix_cons] at hp
        exact hx' (by rw [← hp.1])
      · exact ht.2 (by simpa using hp)
  have suf : ∀ y, y <:+ x ++ c!"//" → y ≠ [] → ∀ c : Str, Unreadable (y ++ c) := by
    intro y hy hne c
    have h0 : y = c!"/" ∨ y = c!"//" ∨ ∃ s, s <:+ x ∧ s ≠ [] ∧ y = s ++ c!"//" := by
      obtain ⟨p, hp⟩ := hy
      rcases List.append_eq_append_iff.mp hp with ⟨s, h1, h2⟩ | ⟨s, h1, h2⟩
      · by_cases hs : s = []
        · subst hs; simp at h2; exact .inr (.inl h2)
        · exact .inr (.inr ⟨s, ⟨p, h1.symm⟩, hs, h2⟩)
      · rcases s with _ | ⟨d, _ | ⟨d', s⟩⟩
        · simp at h2; exact .inr (.inl h2.symm)
        · simp at h2; exact .inl h2.2.symm
        · simp only [List.cons_append, List.cons.injEq] at h2
          have := h2.2.2
          simp only [List.nil_eq, List.append_eq_nil_iff] at this
          exact absurd this.2 hne
    rcases h0 with rfl | rfl | ⟨s, h1, h2, rfl⟩
    · exact slash_unreadable _
    · exact slash_unreadable _
    · rw [List.append_assoc]
      exact unreadable_extend h2 (hu s h1).2 (by simp) (hu s h1).1
  constructor
  · cases b with
    | nil =>
      have : us = [] := by
        have h1 := tokensOf_scan hs
        have h2 : tokensOf [] = [] := by decide
        rw [h2] at h1
        simpa using h1.symm
      subst this
      refine ⟨[], [], ?_, rfl⟩
      have h1 : g ++ x ++ c!"//" = g ++ (x ++ c!"//") := by simp
      show Scan pos (g ++ x ++ c!"//") _ _
      rw [h1]
      refine .stop (gap' _) (tight' _) fun s hs => ?_
      by_cases hne : s = []
      · subst hne
        intro t w e r he hr
        have := lexeme_ne hr.1
        simp at he
        exact this he.1
      · simpa using suf s hs hne []
    | cons c b =>
      obtain rfl := hb c (by simp)
      have gap0 : ∀ {g' r : Str}, Gap g' r → (g' ++ r).head? = some '\n' → g' = [] := by
        intro g' r hg' hh
        cases g' with
        | nil => rfl
        | cons c g' =>
          simp only [List.cons_append, List.head?_cons, Option.some.injEq] at hh
          exact absurd (hh ▸ List.mem_cons_self) (gap_no_newline hg')
      obtain ⟨us', es', hs'⟩ := scan_total (pos + g.length + (x ++ c!"//").length + 1) b
      have h1 := Scan.skip (pos := pos) (g := g) (x := x ++ c!"//") (w := c!"\n") (r := b) (by simpa using gap' _) (by simpa using tight' _) (by simp)
        (fun y hy hne => suf y hy hne _) ⟨.newline, fun h => absurd h (not_word_of (by decide) _)⟩ hs'
      refine ⟨_, _, by simpa using h1, ?_⟩
      have h2 := Scan.token (pos := pos + g.length + (x ++ c!"//").length) (g := []) (w := c!"\n") (r := b) (.blanks (by simp))
        ⟨.newline, fun h => absurd h (not_word_of (by decide) _)⟩ hs'
      obtain ⟨ts2, es2, h3, h4, -⟩ := scan_shift h2 0
      have h5 := tokensOf_scan h3
      have h6 := tokensOf_scan hs
      simp only [List.nil_append, List.cons_append] at h5
      rw [h6, h4] at h5
      rw [h5]
      simp
  · obtain ⟨us', es', h1, h2, -⟩ := scan_shift hs (pos + g.length + (x ++ c!"//").length + 1)
    have h3 := Scan.skip (pos := pos) (g := g) (x := x ++ c!"//") (w := c!"z") (r := b) (by simpa using gap' _) (by simpa using tight' _) (by simp)
      (fun y hy hne => suf y hy hne _)
      ⟨.word ⟨'z', [], rfl, .inl (by decide), by simp⟩ (by simp [keywords]), fun _ => ⟨by
        intro c hc
        rw [hb c hc]
        simp only [WordChar, WordStart]; decide, by simp⟩⟩ h1
    exact ⟨_, _, by simpa using h3, by simp [h2]⟩

/-- A line end follows, or the end of the source: with two slashes before, the gap is a comment. -/
theorem scan_ok_comment {l y b : Str} {pos : Nat} (hl : Gap (l ++ c!"//") []) (hy : '\n' ∉ y) (hb : ∀ c ∈ b.head?, c = '\n')
    {us : List (Token × Span)} {es : List LexError} (hs : Scan 0 b us es) :
    ∃ ts errs, Scan pos (l ++ ('/' :: '/' :: (y ++ b))) ts errs ∧ ts.map Prod.fst = us.map Prod.fst ∧
      errs.map isEscapeError = es.map isEscapeError := by
  generalize hk : l ++ c!"//" = k at hl
  cases hl with
  | blanks h =>
    have := h '/' (by rw [← hk]; simp)
    simp [Blank] at this
  | comment h hx hr =>
    rename_i g x
    have e1 : l ++ ('/' :: '/' :: (y ++ b)) = g ++ ('/' :: '/' :: (x ++ y)) ++ b := by
      have : l ++ ('/' :: '/' :: (y ++ b)) = (l ++ c!"//") ++ (y ++ b) := by simp
      rw [this, hk]; simp
    rw [e1]
    exact scan_comment h (by simp [hx, hy]) hb hs pos

/-- What is read of a source with a comment, depending on whether the two slashes begin or continue a comment. -/
theorem comment_cases (a b : Str) (hq : ∀ s, Skipped a s → ¬ OpenQuote s) (hb : ∀ c ∈ b.head?, c = '\n') :
    (Gap (leftover a ++ c!"//") [] → ∃ errs, ∀ y : Str, '\n' ∉ y → ∃ ts es,
      tokenize (a ++ ('/' :: '/' :: (y ++ b))) = (some ts, es) ∧ ts.map Prod.fst = tokensOf a ++ tokensOf b ∧
      es.map isEscapeError = errs) ∧
    (¬ Gap (leftover a ++ c!"//") [] → tokensOf (a ++ ('/' :: '/' :: b)) = tokensOf a ++ tokensOf b ∧
      tokensOf (a ++ ('/' :: '/' :: 'z' :: b)) = tokensOf a ++ .ident c!"z" :: tokensOf b) := by
  obtain ⟨us, es, hsb⟩ := scan_total 0 b
  obtain ⟨ts, errs, hs⟩ := scan_total 0 a
  obtain ⟨p, g, x, ha, hlast, hg, ht, hu, hext⟩ := scan_extend hs hq
  have hta : tokensOf a = ts.map Prod.fst := tokensOf_scan hs
  have htb : tokensOf b = us.map Prod.fst := tokensOf_scan hsb
  have hlo : leftover a = g ++ x := by
    have : leftover a = a.drop ((ts.getLast?.map fun x => x.2.stop).getD 0) := by
      simp [leftover, (tokenize_exact _ _ _).mpr hs]
    rw [this, hlast, ha]; simp
  constructor
  · intro hgap
    refine ⟨errs.map isEscapeError ++ es.map isEscapeError, fun y hy => ?_⟩
    obtain ⟨xs, es', h1, h2, h3⟩ := scan_ok_comment (pos := 0 + p.length) (hlo ▸ hgap) hy hb hsb
    exact ⟨_, _, (tokenize_exact _ _ _).mpr (hext _ _ _ (by simp) h1), by rw [List.map_append, h2, htb, hta], by rw [List.map_append, h3]⟩
  · intro hgap
    rw [hlo] at hgap
    have hx : x ≠ [] := by
      rintro rfl
      apply hgap
      cases hg with
      | blanks h => simpa using Gap.comment (x := []) (r := []) h (by simp) (by simp)
      | comment h hx hr => 
        rename_i g x
        simpa using Gap.comment (x := x ++ c!"//") (r := []) h (by simp [hx]) (by simp)
    have hx' : x ≠ ['/'] := by
      rintro rfl
      apply hgap
      cases hg with
      | blanks h => simpa using Gap.comment (x := c!"/") (r := []) h (by simp) (by simp)
      | comment h hx hr => simp at hr
    obtain ⟨⟨t1, e1, h1, h2⟩, t2, e2, h3, h4⟩ := scan_bad_comment (pos := 0 + p.length) hg hx hx' ht hu hb hsb
    exact ⟨by rw [tokensOf_scan (hext _ _ _ (by simp) h1), List.map_append, h2, htb, hta],
      by rw [tokensOf_scan (hext _ _ _ (by simp) h3), List.map_append, h4, htb, hta]⟩

/-- **C56**, exactly: let any text `a` stand before two slashes, and a line end or the end of the source behind the text that follows
them.  That text does not influence the tokens exactly if `a` opens no quotation that the text could close, and what is left of `a`
behind its last token becomes a comment by the two slashes, that is, consists of blanks and tabs and perhaps the beginning of a comment.
(The full claim, that it never does, is false, `C56_refuted`.) -/
theorem C56_exactly_partial (a b : Str) (hb : ∀ c ∈ b.head?, c = '\n') :
    (∀ y y' : Str, '\n' ∉ y → '\n' ∉ y' → tokensOf (a ++ ('/' :: '/' :: (y ++ b))) = tokensOf (a ++ ('/' :: '/' :: (y' ++ b)))) ↔
    (∀ s, Skipped a s → ¬ OpenQuote s) ∧ Gap (leftover a ++ c!"//") [] := by
  constructor
  · intro hall
    have hq : ∀ s, Skipped a s → ¬ OpenQuote s := by
      intro s hs ho
      obtain ⟨vs, n, hn⟩ := close_quote hs ho
      obtain ⟨ts, us, es, h1, h2⟩ := hn 0 [] b (by simp)
      obtain ⟨ts', us', es', h3, h4⟩ := hn 0 ['z'] b (by decide)
      have h5 := hall ['`'] ['z', '`'] (by simp) (by simp)
      have h6 := tokensOf_scan h1
      have h7 := tokensOf_scan h3
      simp only [List.cons_append, List.nil_append] at h5 h6 h7
      rw [h6, h7, List.map_append, List.map_append, h2, h4] at h5
      simp at h5
    refine ⟨hq, ?_⟩
    by_contra hgap
    obtain ⟨h3, h4⟩ := (comment_cases a b hq hb).2 hgap
    have h5 := hall [] ['z'] (by simp) (by simp)
    simp only [List.nil_append, List.cons_append] at h5
    rw [h3, h4] at h5
    have := congrArg List.length h5
    simp at this
  · rintro ⟨hq, hgap⟩ y y' hy hy'
    obtain ⟨errs, h3⟩ := (comment_cases a b hq hb).1 hgap
    obtain ⟨ts, es, h4, h5, -⟩ := h3 y hy
    obtain ⟨ts', es', h6, h7, -⟩ := h3 y' hy'
    simp only [tokensOf, h4, h6, Option.getD_some, h5, h7]

/-- **C56** behind errors: where the text of a comment does not influence the tokens, it influences neither the module nor the errors of
the parser nor how many errors of which kind the tokenizer reports, even if something before it cannot be read. -/
theorem C56_after_errors_partial (a b : Str) (hb : ∀ c ∈ b.head?, c = '\n') (hq : ∀ s, Skipped a s → ¬ OpenQuote s)
    (hl : Gap (leftover a ++ c!"//") []) (y y' : Str) (hy : '\n' ∉ y) (hy' : '\n' ∉ y') :
    (parse (a ++ ('/' :: '/' :: (y ++ b)))).1 = (parse (a ++ ('/' :: '/' :: (y' ++ b)))).1 ∧
    (parse (a ++ ('/' :: '/' :: (y ++ b)))).2.2 = (parse (a ++ ('/' :: '/' :: (y' ++ b)))).2.2 ∧
    (parse (a ++ ('/' :: '/' :: (y ++ b)))).2.1.map isEscapeError = (parse (a ++ ('/' :: '/' :: (y' ++ b)))).2.1.map isEscapeError := by
  obtain ⟨errs, h3⟩ := (comment_cases a b hq hb).1 hl
  obtain ⟨ts, es, h4, h5, h6⟩ := h3 y hy
  obtain ⟨ts', es', h7, h8, h9⟩ := h3 y' hy'
  simp only [parse, h4, h7, h5, h8, h6, h9, and_self]

/-- Behind `$ {` a comment is one, although the `$` cannot be read; behind `{ $` it is not. -/
example : leftover c!"erd $ { " = c!" " ∧ leftover c!"erd { $ " = c!" $ " := by decide +kernel

/-- A text without back quotes opens no quotation. -/
theorem skipped_suffix {a s : Str} (h : Skipped a s) : s <:+ a := by
  induction h with
  | here hg ht hs hne hu => exact hs.trans (List.suffix_append _ _)
  | later hg ht hu hw h ih =>
    exact ih.trans ((List.suffix_append _ _).trans ((List.suffix_append _ _).trans (List.suffix_append _ _)))

theorem no_open_quote {a : Str} (hq : '`' ∉ a) (s : Str) (h : Skipped a s) : ¬ OpenQuote s := by
  rintro ⟨n, w, e, -, rfl | rfl⟩ <;> exact hq ((skipped_suffix h).subset (by simp))

/-- Behind an unreadable character and a token, the text of comments does not matter. -/
example : (∀ s, Skipped c!"erd $ { " s → ¬ OpenQuote s) ∧ Gap (leftover c!"erd $ { " ++ c!"//") [] :=
  ⟨no_open_quote (by decide), by
    have : leftover c!"erd $ { " = c!" " := by decide +kernel
    rw [this]
    exact .comment (g := c!" ") (x := []) (by simp [Blank]) (by simp) (by simp)⟩

/-- A quotation that is open although all that follows it is read: the text of the comment can close it. -/
example : (∃ s, Skipped c!"a `b" s ∧ OpenQuote s) ∧ Gap (leftover c!"a `b" ++ c!"//") [] ∧
    tokensOf c!"a `b//\n" = [.ident c!"a", .ident c!"b", .newline] ∧
    tokensOf c!"a `b//`\n" = [.ident c!"a", .ident c!"b//", .newline] := by
  have h0 : leftover c!"a `b" = [] := by decide +kernel
  refine ⟨⟨c!"`b", ?_, ?_⟩, ?_, by decide +kernel, by decide +kernel⟩
  · have h1 : Skipped c!" `b" c!"`b" := by
      refine .here (g := c!" ") (z := c!"`b") (.blanks (by simp [Blank])) ⟨by simp [Blank], by decide⟩ ⟨[], rfl⟩ (by decide) ?_
      intro y hy hl
      rw [hy.eq_of_length (by have := hy.length_le; simp at hl this ⊢; omega)]
      exact (lexToken_none_iff _).mp (by decide +kernel)
    exact .later (g := []) (x := []) (w := c!"a") (r := c!" `b") (t := .ident c!"a") (e := 0) (.blanks (by simp)) (by simp)
      (fun y hy hne => absurd (List.suffix_nil.mp hy) hne)
      ⟨.word ⟨'a', [], rfl, .inl (by decide), by simp⟩ (by simp [keywords]), fun _ => ⟨by
        intro c hc
        simp at hc
        rw [← hc]
        simp only [WordChar, WordStart]; decide, by decide⟩⟩ h1
  · exact ⟨_, _, _, .cons (.raw 'b' (by decide) (by decide)) .nil, .inl rfl⟩
  · rw [h0]
    exact .comment (g := []) (x := []) (by simp) (by simp) (by simp)

end Seiren
