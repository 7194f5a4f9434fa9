import Verif.Props.Picture
import Verif.Spec.Xml
/-! # Elements that are shown by the same tree -/

namespace Seiren
open Spec

/-- Values of the same kind are equal. -/
def AgreeVal : AttrVal → AttrVal → Prop
  | .str s, .str s' => s = s'
  | .num x, .num x' => x = x'
  | .path p, .path p' => p = p'
  | _, _ => True

mutual
/-- Elements that say the same as far as they can be compared. -/
def Agree : Element → Element → Prop
  | .mk name attrs children text, .mk name' attrs' children' text' =>
    name = name' ∧ (∀ k v v', attrs.lookup k = some v → attrs'.lookup k = some v' → AgreeVal v v') ∧ AgreeAll children children' ∧
      ∀ t t', text = some t → text' = some t' → t = t'

/-- The same for lists. -/
def AgreeAll : List Element → List Element → Prop
  | [], [] => True
  | e :: es, e' :: es' => Agree e e' ∧ AgreeAll es es'
  | _, _ => False
end

theorem AgreeVal.refl (v : AttrVal) : AgreeVal v v := by cases v <;> simp [AgreeVal]

mutual
theorem Agree.refl : ∀ e : Element, Agree e e
  | .mk name attrs children text => by
    refine ⟨rfl, ?_, AgreeAll.refl children, ?_⟩
    · intro k v v' h h'
      rw [h] at h'
      cases h'
      exact AgreeVal.refl v
    · intro t t' h h'
      rw [h] at h'
      cases h'
      rfl

theorem AgreeAll.refl : ∀ es : List Element, AgreeAll es es
  | [] => trivial
  | e :: es => ⟨Agree.refl e, AgreeAll.refl es⟩
end

theorem agreeVal_shown {s : Str} {v v' : AttrVal} (h : ValueShown s v) (h' : ValueShown s v') : AgreeVal v v' := by
  cases v <;> cases v' <;> simp only [ValueShown, AgreeVal] at h h' ⊢
  · rw [← h, h']
  · rw [h] at h'; exact Option.some.inj h'
  · rw [h] at h'; exact Option.some.inj h'

theorem lookup_mem {α : Type} {l : List (Str × α)} {k : Str} {v : α} (h : l.lookup k = some v) : (k, v) ∈ l := by
  induction l with
  | nil => cases h
  | cons x l ih =>
    obtain ⟨k', v'⟩ := x
    rw [List.lookup_cons] at h
    split at h
    next hk =>
      rw [beq_iff_eq] at hk
      cases h
      rw [hk]
      exact List.mem_cons_self
    · exact List.mem_cons_of_mem _ (ih h)

mutual
theorem agree_shown : ∀ (e e' : Element) (x : Xml), Shows e x → Shows e' x → Agree e e'
  | .mk name attrs children text, .mk name' attrs' children' text', .elem n found content, h, h' => by
    obtain ⟨h1, ⟨hn, hp, ha⟩, h3, h4⟩ := h
    obtain ⟨h1', ⟨hn', hp', ha'⟩, h3', h4'⟩ := h'
    refine ⟨h1.symm.trans h1', ?_, agreeAll_shown _ _ _ h3 h3', ?_⟩
    · intro k v v' hv hv'
      obtain ⟨s, hs, hsv⟩ := ha k v (lookup_mem hv)
      obtain ⟨s', hs', hsv'⟩ := ha' k v' (lookup_mem hv')
      have hnd : (found.map (·.1)).Nodup := hp.nodup_iff.mpr hn
      have : s = s' := by
        have := List.inj_on_of_nodup_map hnd hs hs' rfl
        exact (Prod.mk.inj this).2
      subst this
      exact agreeVal_shown hsv hsv'
    · rintro t t' rfl rfl
      simp only at h4 h4'
      rw [h4] at h4'
      simpa using h4'
  | .mk _ _ _ _, _, .text _, h, _ => by cases h

theorem agreeAll_shown : ∀ (es es' : List Element) (xs : List Xml), ShowsAll es xs → ShowsAll es' xs → AgreeAll es es'
  | [], [], _, _, _ => trivial
  | e :: es, e' :: es', x :: xs, h, h' => ⟨agree_shown e e' x h.1 h'.1, agreeAll_shown es es' xs h.2 h'.2⟩
  | [], _ :: _, [], _, h' => by cases h'
  | [], _ :: _, _ :: _, h, _ => by cases h
  | _ :: _, [], [], h, _ => by cases h
  | _ :: _, [], _ :: _, _, h' => by cases h'
  | _ :: _, _ :: _, [], h, _ => by cases h
end

/-! ## Pictures -/

theorem agree_text {x y x' y' : Rat} {anchor fill font anchor' fill' font' : Str} {style style' : List (Str × AttrVal)} {t t' : Str}
    (h : Agree (picText x y anchor fill font style t) (picText x' y' anchor' fill' font' style' t')) : t = t' :=
  h.2.2.2 t t' rfl rfl

theorem typeText_injective {t t' : EntityFieldType} (h : typeText t = typeText t') : t = t' := by
  cases t <;> cases t' <;> first | rfl | (revert h; decide)

theorem keyText_injective {t t' : EntityFieldKey} (h : keyText t = keyText t') : t = t' := by
  cases t <;> cases t' <;> first | rfl | (revert h; decide)

/-- The list does not begin with a circle. -/
def NoCircle (es : List Element) : Prop := ∀ e ∈ es.head?, e.name ≠ c!"circle"

theorem agree_badge {x y : Rat} {k : EntityFieldKey} {rest rest' : List Element} (h' : NoCircle rest') :
    ¬ AgreeAll (picBadge x y k ++ rest) rest' ∧ ¬ AgreeAll rest' (picBadge x y k ++ rest) := by
  constructor
  · intro h
    cases rest' with
    | nil => cases h
    | cons e es =>
      obtain ⟨n, as, cs, t⟩ := e
      exact h' (.mk n as cs t) rfl h.1.1.symm
  · intro h
    cases rest' with
    | nil => cases h
    | cons e es =>
      obtain ⟨n, as, cs, t⟩ := e
      exact h' (.mk n as cs t) rfl h.1.1

theorem agree_column {x y x' y' : Rat} {f f' : EntityField} {rest rest' : List Element} (hr : NoCircle rest) (hr' : NoCircle rest')
    (h : AgreeAll (picColumn x y f ++ rest) (picColumn x' y' f' ++ rest')) : f = f' ∧ AgreeAll rest rest' := by
  obtain ⟨name, ty, key⟩ := f
  obtain ⟨name', ty', key'⟩ := f'
  obtain ⟨-, h2, h3, h4⟩ := h
  have e1 : name = name' := agree_text h2
  have e2 : ty = ty' := typeText_injective (agree_text h3)
  subst e1 e2
  cases key with
  | none =>
    cases key' with
    | none => exact ⟨rfl, h4⟩
    | some k' => exact absurd h4 (agree_badge hr).2
  | some k =>
    cases key' with
    | none => exact absurd h4 (agree_badge hr').1
    | some k' =>
      obtain ⟨-, h5, h6⟩ := h4
      have : k = k' := keyText_injective (agree_text h5)
      subst this
      exact ⟨rfl, h6⟩

theorem noCircle_columns (x y : Rat) {rest : List Element} (hr : NoCircle rest) (fs : List EntityField) (j : Nat) :
    NoCircle ((fs.zipIdx j).flatMap (fun (f, j) => picColumn x (y + 35 * ((j : Rat) + 1)) f) ++ rest) := by
  cases fs with
  | nil => exact hr
  | cons f fs =>
    intro e he
    simp only [List.zipIdx_cons, List.flatMap_cons, picColumn, List.cons_append, List.nil_append, List.head?_cons, Option.mem_def,
      Option.some.injEq] at he
    subst he
    simp only [Element.name]
    decide

theorem agree_columns {x y x' y' : Rat} {rest rest' : List Element} (hr : NoCircle rest) (hr' : NoCircle rest') :
    ∀ (fs fs' : List EntityField) (j : Nat), fs.length = fs'.length →
      AgreeAll ((fs.zipIdx j).flatMap (fun (f, j) => picColumn x (y + 35 * ((j : Rat) + 1)) f) ++ rest)
        ((fs'.zipIdx j).flatMap (fun (f, j) => picColumn x' (y' + 35 * ((j : Rat) + 1)) f) ++ rest') → fs = fs' ∧ AgreeAll rest rest'
  | [], [], _, _, h => ⟨rfl, h⟩
  | [], _ :: _, _, hl, _ => by cases hl
  | _ :: _, [], _, hl, _ => by cases hl
  | f :: fs, f' :: fs', j, hl, h => by
    simp only [List.zipIdx_cons, List.flatMap_cons, List.append_assoc] at h
    obtain ⟨rfl, h1⟩ := agree_column (noCircle_columns x y hr fs (j + 1)) (noCircle_columns x' y' hr' fs' (j + 1)) h
    obtain ⟨rfl, h2⟩ := agree_columns hr hr' fs fs' (j + 1) (by simpa using hl) h1
    exact ⟨rfl, h2⟩

theorem noCircle_tables (ns : List Nat) {rest : List Element} (hr : NoCircle rest) (ds : List EntityDefinition) (k : Nat) :
    NoCircle ((ds.zipIdx k).flatMap (fun (d, k) => picTable ns d k) ++ rest) := by
  cases ds with
  | nil => exact hr
  | cons d ds =>
    intro e he
    simp only [List.zipIdx_cons, List.flatMap_cons, picTable, List.cons_append, List.head?_cons, Option.mem_def,
      Option.some.injEq] at he
    subst he
    simp only [picFrame, Element.name]
    decide

theorem agree_tables {ns ns' : List Nat} {rest rest' : List Element} (hr : NoCircle rest) (hr' : NoCircle rest') :
    ∀ (ds ds' : List EntityDefinition) (k : Nat), lineNumbers ds = lineNumbers ds' →
      AgreeAll ((ds.zipIdx k).flatMap (fun (d, k) => picTable ns d k) ++ rest)
        ((ds'.zipIdx k).flatMap (fun (d, k) => picTable ns' d k) ++ rest') → ds = ds' ∧ AgreeAll rest rest'
  | [], [], _, _, h => ⟨rfl, h⟩
  | [], _ :: _, _, hl, _ => by cases hl
  | _ :: _, [], _, hl, _ => by cases hl
  | ⟨n, fs⟩ :: ds, ⟨n', fs'⟩ :: ds', k, hl, h => by
    simp only [lineNumbers, List.map_cons, List.cons.injEq, Nat.add_right_cancel_iff] at hl
    simp only [List.zipIdx_cons, List.flatMap_cons, List.append_assoc, picTable, List.cons_append] at h
    obtain ⟨-, -, h2, h3⟩ := h
    have e1 : n = n' := agree_text h2
    subst e1
    obtain ⟨rfl, h4⟩ := agree_columns (noCircle_tables ns hr ds (k + 1)) (noCircle_tables ns' hr' ds' (k + 1)) fs fs' 0 hl.1 h3
    obtain ⟨rfl, h5⟩ := agree_tables hr hr' ds ds' (k + 1) hl.2 h4
    exact ⟨rfl, h5⟩

theorem agree_frame {x y x' y' : Rat} {n n' : Nat} {cs cs' : List (Str × AttrVal)} (h : Agree (picFrame x y n cs) (picFrame x' y' n' cs')) :
    n = n' := by
  have := h.2.1 c!"height" (.num (35 * (n : Rat))) (.num (35 * (n' : Rat))) rfl rfl
  simp only [AgreeVal] at this
  have h2 : (n : Rat) = (n' : Rat) := by linarith
  exact_mod_cast h2

theorem agree_clips {ns ns' : List Nat} : ∀ (ds ds' : List EntityDefinition) (k : Nat),
    AgreeAll ((ds.zipIdx k).map fun (d, k) => picClip ns d k) ((ds'.zipIdx k).map fun (d, k) => picClip ns' d k) →
      lineNumbers ds = lineNumbers ds'
  | [], [], _, _ => rfl
  | [], _ :: _, _, h => by cases h
  | _ :: _, [], _, h => by cases h
  | d :: ds, d' :: ds', k, h => by
    simp only [List.zipIdx_cons, List.map_cons] at h
    obtain ⟨⟨-, -, ⟨h1, -⟩, -⟩, h2⟩ := h
    simp only [lineNumbers, List.map_cons]
    rw [agree_frame h1]
    exact congrArg _ (agree_clips ds ds' (k + 1) h2)

/-- The children of a picture determine the tables. -/
theorem agree_pictures {ds ds' : List EntityDefinition} {rels rels' : List Element} (hr : NoCircle rels) (hr' : NoCircle rels')
    (h : AgreeAll (picture ds rels).children (picture ds' rels').children) : ds = ds' ∧ AgreeAll rels rels' := by
  obtain ⟨-, ⟨-, -, hclips, -⟩, htables⟩ := h
  exact agree_tables hr hr' ds ds' 0 (agree_clips ds ds' 0 hclips) htables

theorem agree_end {p p' : Point} (h : Agree (picEnd p) (picEnd p')) : p = p' := by
  have hx := h.2.1 c!"cx" (.num p.x) (.num p'.x) rfl rfl
  have hy := h.2.1 c!"cy" (.num p.y) (.num p'.y) rfl rfl
  obtain ⟨x, y⟩ := p
  obtain ⟨x', y'⟩ := p'
  simp only [AgreeVal] at hx hy
  rw [hx, hy]

/-- Relations of pictures that agree are drawn in the same way. -/
theorem agree_relations {R R' : NodeRef × NodeRef → List Element → Prop}
    (hR : ∀ c els, R c els → ∃ a b cs, els = picRelation a b cs) (hR' : ∀ c els, R' c els → ∃ a b cs, els = picRelation a b cs) :
    ∀ (l l' : List (NodeRef × NodeRef)) (bs bs' : List (List Element)), List.Forall₂ R l bs → List.Forall₂ R' l' bs' →
      AgreeAll bs.flatten bs'.flatten → bs = bs'
  | _, _, _, _, .nil, .nil, _ => rfl
  | _, _, _, _, .nil, .cons h _, hag => by
    obtain ⟨a, b, cs, rfl⟩ := hR' _ _ h
    cases hag
  | _, _, _, _, .cons h _, .nil, hag => by
    obtain ⟨a, b, cs, rfl⟩ := hR _ _ h
    cases hag
  | _, _, _, _, .cons h hs, .cons h' hs', hag => by
    obtain ⟨a, b, cs, rfl⟩ := hR _ _ h
    obtain ⟨a', b', cs', rfl⟩ := hR' _ _ h'
    obtain ⟨h1, h2, h3, h4⟩ := hag
    have e1 := agree_end h2
    have e2 := agree_end h3
    have e3 : cs = cs' := h1.2.1 c!"d" (.path cs) (.path cs') rfl rfl
    subst e1 e2 e3
    rw [agree_relations hR hR' _ _ _ _ hs hs' h4]

end Seiren
