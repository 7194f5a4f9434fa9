import Verif.Props.Stdout
import Verif.Props.Display
import Verif.Props.Bounds
/-! # The length of the text of an element -/

namespace Seiren
open Spec

/-- The number of bytes of a text in UTF-8. -/
def byteLen (s : Str) : Nat := (encodeUtf8 s).length

@[simp] theorem byteLen_nil : byteLen [] = 0 := rfl

theorem byteLen_append (s t : Str) : byteLen (s ++ t) = byteLen s + byteLen t := by
  unfold byteLen; rw [encodeUtf8_append, List.length_append]

theorem byteLen_cons (c : Char) (s : Str) : byteLen (c :: s) = byteLen [c] + byteLen s := byteLen_append [c] s

theorem encodeChar_ascii {c : Char} (h : c.toNat < 128) : (encodeChar c).length = 1 := by
  unfold encodeChar
  simp [show c.toNat < 0x80 from h]

theorem byteLen_ascii {s : Str} (h : ∀ c ∈ s, c.toNat < 128) : byteLen s = s.length := by
  induction s with
  | nil => rfl
  | cons c s ih =>
    have h1 : byteLen [c] = 1 := by
      show (([c] : Str).flatMap encodeChar).length = 1
      simp [encodeChar_ascii (h c (by simp))]
    rw [byteLen_cons, h1, ih fun x hx => h x (by simp [hx]), List.length_cons, Nat.add_comm]

theorem byteLen_digits {n d : Nat} (h : n < 10 ^ d) (hd : 0 < d) : byteLen (Nat.toDigits 10 n) ≤ d := by
  rw [byteLen_ascii]
  · exact toDigits_length_le h hd
  · intro c hc
    have := List.all_eq_true.mp (toDigits_digits n) c hc
    simp only [Char.isDigit, Bool.and_eq_true, decide_eq_true_eq, ge_iff_le, UInt32.le_iff_toNat_le] at this
    have h2 : c.toNat ≤ 57 := this.2
    omega

theorem displayNum_len {x : Rat} (h : Small x) : byteLen (displayNum x) ≤ 10 := by
  obtain ⟨n, hn, rfl⟩ := h
  unfold displayNum
  have e : ((n : Rat) / 2 * 2).floor = n := by
    rw [div_mul_cancel₀ _ (by norm_num : (2 : Rat) ≠ 0)]
    exact Rat.floor_intCast n
  simp only [e]
  have h1 : n.natAbs / 2 < 10 ^ 7 := by
    have : n.natAbs < 2 ^ 24 := by
      have h2 : ((n.natAbs : Nat) : Int) < 2 ^ 24 := by rwa [Int.natCast_natAbs]
      exact_mod_cast h2
    omega
  have h2 := byteLen_digits h1 (by norm_num)
  rw [byteLen_append, byteLen_append]
  have h3 : byteLen (if n < 0 then c!"-" else []) ≤ 1 := by split <;> decide
  have h4 : byteLen (if n.natAbs % 2 = 1 then c!".5" else []) ≤ 2 := by split <;> decide
  omega

/-! ## Attributes -/

/-- A bound for the length of a value. -/
def valSize : AttrVal → Nat
  | .str s => byteLen s
  | .num _ => 10
  | .nums xs => 12 * xs.length
  | .path cs => 45 * cs.length
  | .points ps => 23 * ps.length

theorem joinWith_len (sep : Str) (k : Nat) (ss : List Str) (h : ∀ s ∈ ss, byteLen s ≤ k) : byteLen (joinWith sep ss) ≤ (k + byteLen sep) * ss.length := by
  induction ss with
  | nil => simp [joinWith]
  | cons s ss ih =>
    have h1 := h s (by simp)
    have h2 := ih fun t ht => h t (by simp [ht])
    cases ss with
    | nil => simp only [joinWith, List.length_cons, List.length_nil]; omega
    | cons t ss =>
      rw [joinWith, byteLen_append, byteLen_append, List.length_cons, Nat.mul_succ]
      omega

theorem display_len (v : AttrVal) (h : ∀ x ∈ v.numbersIn, Small x) : byteLen v.display ≤ valSize v := by
  cases v with
  | str s => exact le_rfl
  | num x => exact displayNum_len (h x (by simp [AttrVal.numbersIn]))
  | nums xs =>
    have := joinWith_len c!", " 10 (xs.map displayNum) (by
      intro s hs
      obtain ⟨x, hx, rfl⟩ := List.mem_map.mp hs
      exact displayNum_len (h x hx))
    rw [List.length_map] at this
    exact this
  | path cs =>
    have := joinWith_len c!" " 44 (cs.map PathCommand.display) (by
      intro s hs
      obtain ⟨c, hc, rfl⟩ := List.mem_map.mp hs
      have hx : ∀ x ∈ (pointsOf c).flatMap fun p => [p.x, p.y], Small x := fun x hx => h x (List.mem_flatMap.mpr ⟨c, hc, hx⟩)
      have b1 : byteLen c!"M" = 1 := rfl
      have b2 : byteLen c!"L" = 1 := rfl
      have b3 : byteLen c!"Q" = 1 := rfl
      have b4 : byteLen c!" " = 1 := rfl
      cases c with
      | moveTo p =>
        have h1 := displayNum_len (hx p.x (by simp [pointsOf]))
        have h2 := displayNum_len (hx p.y (by simp [pointsOf]))
        simp only [PathCommand.display, byteLen_append, b1, b4]; omega
      | lineTo p =>
        have h1 := displayNum_len (hx p.x (by simp [pointsOf]))
        have h2 := displayNum_len (hx p.y (by simp [pointsOf]))
        simp only [PathCommand.display, byteLen_append, b2, b4]; omega
      | quadTo p r =>
        have h1 := displayNum_len (hx p.x (by simp [pointsOf]))
        have h2 := displayNum_len (hx p.y (by simp [pointsOf]))
        have h3 := displayNum_len (hx r.x (by simp [pointsOf]))
        have h4 := displayNum_len (hx r.y (by simp [pointsOf]))
        simp only [PathCommand.display, byteLen_append, b3, b4]; omega)
    rw [List.length_map] at this
    exact this
  | points ps =>
    have := joinWith_len c!" " 22 (ps.map fun p => displayNum p.x ++ c!", " ++ displayNum p.y) (by
      intro s hs
      obtain ⟨p, hp, rfl⟩ := List.mem_map.mp hs
      have b : byteLen c!", " = 2 := rfl
      have h1 := displayNum_len (h p.x (List.mem_flatMap.mpr ⟨p, hp, by simp⟩))
      have h2 := displayNum_len (h p.y (List.mem_flatMap.mpr ⟨p, hp, by simp⟩))
      simp only [byteLen_append, b]; omega)
    rw [List.length_map] at this
    exact this

theorem attrText_len (a : Str × Str) : byteLen (attrText a) ≤ byteLen a.1 + byteLen a.2 + 4 := by
  have b1 : byteLen c!" " = 1 := rfl
  have b2 : byteLen c!"='" = 2 := rfl
  have b3 : byteLen c!"'" = 1 := rfl
  have b4 : byteLen c!"=\"" = 2 := rfl
  have b5 : byteLen c!"\"" = 1 := rfl
  unfold attrText
  split
  · split
    · simp
    · simp only [byteLen_append, b1, b2, b3]; omega
  · simp only [byteLen_append, b1, b4, b5]; omega

theorem insertAttr_len (a : Str × Str) (bs : List (Str × Str)) :
    byteLen ((insertAttr a bs).flatMap attrText) = byteLen (attrText a) + byteLen (bs.flatMap attrText) := by
  induction bs with
  | nil => simp [insertAttr]
  | cons b bs ih =>
    rw [insertAttr]
    split
    · simp [byteLen_append]
    · simp only [List.flatMap_cons, byteLen_append, ih]; omega

theorem sortAttrs_len (as : List (Str × Str)) : byteLen ((sortAttrs as).flatMap attrText) = byteLen (as.flatMap attrText) := by
  induction as with
  | nil => rfl
  | cons a as ih => rw [sortAttrs, insertAttr_len, ih, List.flatMap_cons, byteLen_append]

/-- A bound for the length of a list of attributes. -/
def attrsSize : List (Str × AttrVal) → Nat
  | [] => 0
  | a :: as => byteLen a.1 + valSize a.2 + 4 + attrsSize as

theorem attrs_len (as : List (Str × AttrVal)) (h : ∀ a ∈ as, ∀ x ∈ a.2.numbersIn, Small x) :
    byteLen ((sortAttrs (as.map fun a => (a.1, a.2.display))).flatMap attrText) ≤ attrsSize as := by
  rw [sortAttrs_len]
  induction as with
  | nil => simp [attrsSize]
  | cons a as ih =>
    have h1 := attrText_len (a.1, a.2.display)
    have h2 := display_len a.2 (h a (by simp))
    have h3 := ih fun b hb => h b (by simp [hb])
    simp only [List.map_cons, List.flatMap_cons, byteLen_append, attrsSize] at h1 h3 ⊢
    omega

/-! ## Elements -/

mutual
/-- A bound for the length of an element, without the texts in it. -/
def Element.frame : Element → Nat
  | .mk name attrs children text => 6 + 2 * byteLen name + attrsSize attrs + frames children + if text.isSome then 1 else 0
/-- The same for the children of an element. -/
def frames : List Element → Nat
  | [] => 0
  | e :: es => 1 + e.frame + frames es
end

mutual
/-- The bytes of the texts in an element. -/
def Element.wording (esc : Str → Str) : Element → Nat
  | .mk _ _ children text => wordings esc children + ((text.map fun t => byteLen (esc t)).getD 0)
/-- The same for the children of an element. -/
def wordings (esc : Str → Str) : List Element → Nat
  | [] => 0
  | e :: es => e.wording esc + wordings esc es
end

mutual
theorem toText_len (esc : Str → Str) (e : Element) (h : AllNums Small e) : byteLen (e.toText esc) ≤ e.frame + e.wording esc := by
  match e, h with
  | .mk name attrs children text, h =>
    obtain ⟨h1, h2⟩ := h
    have ha := attrs_len attrs h1
    have hc := childrenText_len esc children h2
    have b1 : byteLen c!"<" = 1 := rfl
    have b2 : byteLen c!"/>" = 2 := rfl
    have b3 : byteLen c!">" = 1 := rfl
    have b4 : byteLen c!"\n" = 1 := rfl
    have b5 : byteLen c!"\n</" = 3 := rfl
    rw [Element.toText, Element.frame, Element.wording]
    split
    · simp only [byteLen_append, b1, b2]; omega
    · cases text with
      | none => simp only [byteLen_append, b1, b3, b5, Option.map_none, Option.getD_none, byteLen_nil, Option.isSome_none]; simp; omega
      | some t => simp only [byteLen_append, b1, b3, b4, b5, Option.map_some, Option.getD_some, Option.isSome_some, if_true]; omega
theorem childrenText_len (esc : Str → Str) (es : List Element) (h : AllNumsList Small es) : byteLen (childrenText esc es) ≤ frames es + wordings esc es := by
  match es, h with
  | [], _ => simp [childrenText]
  | e :: es, h =>
    have h1 := toText_len esc e h.1
    have h2 := childrenText_len esc es h.2
    have b4 : byteLen c!"\n" = 1 := rfl
    rw [childrenText, frames, wordings]
    simp only [byteLen_append, b4]; omega
end

theorem frames_append (a b : List Element) : frames (a ++ b) = frames a + frames b := by
  induction a with
  | nil => simp [frames]
  | cons e a ih => simp only [List.cons_append, frames, ih]; omega

theorem wordings_append (esc : Str → Str) (a b : List Element) : wordings esc (a ++ b) = wordings esc a + wordings esc b := by
  induction a with
  | nil => simp [wordings]
  | cons e a ih => simp only [List.cons_append, wordings, ih]; omega

/-! ## The pieces of a picture -/

theorem clipName_len {k : Nat} (h : k < 10000000) : byteLen (clipName k) ≤ 24 := by
  have := byteLen_digits (n := k) (d := 7) h (by norm_num)
  have b : byteLen c!"record-clip-path-" = 17 := rfl
  rw [clipName, byteLen_append, b]; omega

theorem byteLen_lit {s : Str} (h : (s.all fun c => decide (c.toNat < 128)) = true) : byteLen s = s.length :=
  byteLen_ascii fun c hc => by simpa using List.all_eq_true.mp h c hc

theorem picHeader_frame {k : Nat} (h : k < 10000000) (x y : Rat) (name : Str) : frames (picHeader k x y name) ≤ 313 := by
  have h1 : byteLen (c!"url(#" ++ clipName k ++ c!")") ≤ 30 := by
    have := clipName_len h
    have b1 : byteLen c!"url(#" = 5 := rfl
    have b2 : byteLen c!")" = 1 := rfl
    rw [byteLen_append, byteLen_append, b1, b2]; omega
  rw [picHeader]
  generalize c!"url(#" ++ clipName k ++ c!")" = u at h1
  simp (disch := decide) only [picText, frames, Element.frame, attrsSize, valSize, byteLen_lit, List.length_cons, List.length_nil,
    List.cons_append, List.nil_append]
  simp
  omega

theorem picColumn_frame (x y : Rat) (f : EntityField) : frames (picColumn x y f) ≤ 717 := by
  obtain ⟨name, ty, key⟩ := f
  cases key with
  | none =>
    cases ty
    · exact (by decide : frames (picColumn 0 0 ⟨[], .int, none⟩) ≤ 717)
    · exact (by decide : frames (picColumn 0 0 ⟨[], .uuid, none⟩) ≤ 717)
    · exact (by decide : frames (picColumn 0 0 ⟨[], .text, none⟩) ≤ 717)
    · exact (by decide : frames (picColumn 0 0 ⟨[], .timestamp, none⟩) ≤ 717)
  | some k =>
    cases k
    · cases ty
      · exact (by decide : frames (picColumn 0 0 ⟨[], .int, some .primaryKey⟩) ≤ 717)
      · exact (by decide : frames (picColumn 0 0 ⟨[], .uuid, some .primaryKey⟩) ≤ 717)
      · exact (by decide : frames (picColumn 0 0 ⟨[], .text, some .primaryKey⟩) ≤ 717)
      · exact (by decide : frames (picColumn 0 0 ⟨[], .timestamp, some .primaryKey⟩) ≤ 717)
    · cases ty
      · exact (by decide : frames (picColumn 0 0 ⟨[], .int, some .foreignKey⟩) ≤ 717)
      · exact (by decide : frames (picColumn 0 0 ⟨[], .uuid, some .foreignKey⟩) ≤ 717)
      · exact (by decide : frames (picColumn 0 0 ⟨[], .text, some .foreignKey⟩) ≤ 717)
      · exact (by decide : frames (picColumn 0 0 ⟨[], .timestamp, some .foreignKey⟩) ≤ 717)

theorem picColumns_frame (x : Rat) (y : Nat → Rat) (fs : List EntityField) (i : Nat) :
    frames ((fs.zipIdx i).flatMap fun (f, j) => picColumn x (y j) f) ≤ 717 * fs.length := by
  induction fs generalizing i with
  | nil => simp [frames]
  | cons f fs ih =>
    have h1 := picColumn_frame x (y i) f
    have h2 := ih (i + 1)
    simp only [List.zipIdx_cons, List.flatMap_cons, frames_append, List.length_cons] at h2 ⊢
    omega

theorem picTable_frame {k : Nat} (h : k < 10000000) (ns : List Nat) (d : EntityDefinition) : frames (picTable ns d k) ≤ 461 + 717 * d.fields.length := by
  have h1 := picHeader_frame h (tableX k) (rowTop ns (k / 3)) d.name
  have h2 := picColumns_frame (tableX k) (fun j => rowTop ns (k / 3) + 35 * ((j : Rat) + 1)) d.fields 0
  have h3 : (picFrame (tableX k) (rowTop ns (k / 3)) (d.fields.length + 1) [(c!"stroke", .str c!"#494949"), (c!"fill", .str c!"#212121")]).frame = 147 := rfl
  rw [picTable]
  simp only [frames, frames_append, h3] at h2 ⊢
  omega

theorem picClip_frame {k : Nat} (h : k < 10000000) (ns : List Nat) (d : EntityDefinition) : (picClip ns d k).frame ≤ 168 := by
  have h1 := clipName_len h
  have h3 : (picFrame (tableX k) (rowTop ns (k / 3)) (d.fields.length + 1) []).frame = 115 := rfl
  simp (disch := decide) only [picClip, frames, Element.frame, attrsSize, valSize, byteLen_lit, List.length_cons, List.length_nil, h3]
  simp
  omega

theorem picRelation_frame (a b : Point) (cs : List PathCommand) : frames (picRelation a b cs) = 330 + 45 * cs.length := by
  have h1 : (picEnd a).frame = 123 := rfl
  have h2 : (picEnd b).frame = 123 := rfl
  simp (disch := decide) only [picRelation, frames, Element.frame, attrsSize, valSize, byteLen_lit, List.length_cons, List.length_nil, h1, h2]
  simp
  omega

theorem picClips_frame (ns : List Nat) (ds : List EntityDefinition) (i : Nat) (h : i + ds.length ≤ 10000000) :
    frames ((ds.zipIdx i).map fun (d, k) => picClip ns d k) ≤ 169 * ds.length := by
  induction ds generalizing i with
  | nil => simp [frames]
  | cons d ds ih =>
    rw [List.length_cons] at h
    have h1 := picClip_frame (k := i) (by omega) ns d
    have h2 := ih (i + 1) (by omega)
    simp only [List.zipIdx_cons, List.map_cons, frames, List.length_cons] at h2 ⊢
    omega

theorem picTables_frame (ns : List Nat) (ds : List EntityDefinition) (i : Nat) (h : i + ds.length ≤ 10000000) :
    frames ((ds.zipIdx i).flatMap fun (d, k) => picTable ns d k) ≤ 461 * ds.length + 717 * columnCount ds := by
  induction ds generalizing i with
  | nil => simp [frames, columnCount]
  | cons d ds ih =>
    rw [List.length_cons] at h
    have h1 := picTable_frame (k := i) (by omega) ns d
    have h2 := ih (i + 1) (by omega)
    simp only [List.zipIdx_cons, List.flatMap_cons, frames_append, List.length_cons, columnCount, List.map_cons, List.sum_cons] at h2 ⊢
    omega

/-- The markup of a picture. -/
theorem picture_frame (ds : List EntityDefinition) (rs : List Element) (h : ds.length ≤ 10000000) :
    (withNamespace (picture ds rs)).frame ≤ 178 + 630 * ds.length + 717 * columnCount ds + frames rs := by
  have h1 := picClips_frame (lineNumbers ds) ds 0 (by omega)
  have h2 := picTables_frame (lineNumbers ds) ds 0 (by omega)
  rw [picture]
  generalize picHeight (lineNumbers ds) = y
  generalize lineNumbers ds = ns at h1 h2 ⊢
  generalize (List.map (fun x => match x with | (d, k) => picClip ns d k) ds.zipIdx) = cl at h1 ⊢
  generalize (List.flatMap (fun x => match x with | (d, k) => picTable ns d k) ds.zipIdx) = tb at h2 ⊢
  simp (disch := decide) only [withNamespace, frames, frames_append, Element.frame, attrsSize, valSize, byteLen_lit, List.length_cons, List.length_nil,
    List.cons_append]
  simp
  omega

/-! ## The texts of a picture -/

/-- The bytes of the names of the tables and columns. -/
def Spec.nameBytes (ds : List EntityDefinition) : Nat := (ds.map fun d => byteLen d.name + (d.fields.map fun f => byteLen f.name).sum).sum

section
variable {esc : Str → Str} {e : Nat} (he : ∀ t, byteLen (esc t) ≤ e * byteLen t)
include he

theorem picHeader_wording (k : Nat) (x y : Rat) (name : Str) : wordings esc (picHeader k x y name) ≤ e * byteLen name := by
  have h : wordings esc (picHeader k x y name) = byteLen (esc name) := by
    simp only [picHeader, picText, wordings, Element.wording, Option.map_none, Option.map_some, Option.getD_none, Option.getD_some]; omega
  rw [h]; exact he name

theorem picColumn_wording (x y : Rat) (f : EntityField) : wordings esc (picColumn x y f) ≤ e * (byteLen f.name + 11) := by
  obtain ⟨name, ty, key⟩ := f
  have h1 := he name
  have h2 : byteLen (esc (typeText ty)) ≤ e * 9 :=
    (he (typeText ty)).trans (Nat.mul_le_mul_left _ (by cases ty <;> decide))
  cases key with
  | none =>
    have h : wordings esc (picColumn x y ⟨name, ty, none⟩) = byteLen (esc name) + byteLen (esc (typeText ty)) := by
      simp only [picColumn, picText, wordings, Element.wording, Option.map_none, Option.map_some, Option.getD_none, Option.getD_some,
        List.append_nil]; omega
    rw [h]; simp only [Nat.mul_add]; omega
  | some k =>
    have h3 : byteLen (esc (keyText k)) ≤ e * 2 :=
      (he (keyText k)).trans (Nat.mul_le_mul_left _ (by cases k <;> decide))
    have h : wordings esc (picColumn x y ⟨name, ty, some k⟩) = byteLen (esc name) + byteLen (esc (typeText ty)) + byteLen (esc (keyText k)) := by
      simp only [picColumn, picBadge, picText, wordings, wordings_append, Element.wording, Option.map_none, Option.map_some, Option.getD_none,
        Option.getD_some]; omega
    rw [h]; simp only [Nat.mul_add]; omega

theorem picColumns_wording (x : Rat) (y : Nat → Rat) (fs : List EntityField) (i : Nat) :
    wordings esc ((fs.zipIdx i).flatMap fun (f, j) => picColumn x (y j) f) ≤ e * ((fs.map fun f => byteLen f.name).sum + 11 * fs.length) := by
  induction fs generalizing i with
  | nil => simp [wordings]
  | cons f fs ih =>
    have h1 := picColumn_wording he x (y i) f
    have h2 := ih (i + 1)
    simp only [List.zipIdx_cons, List.flatMap_cons, wordings_append, List.length_cons, List.map_cons, List.sum_cons, Nat.mul_add] at h1 h2 ⊢
    omega

theorem picTables_wording (ns : List Nat) (ds : List EntityDefinition) (i : Nat) :
    wordings esc ((ds.zipIdx i).flatMap fun (d, k) => picTable ns d k) ≤ e * (nameBytes ds + 11 * columnCount ds) := by
  induction ds generalizing i with
  | nil => simp [wordings]
  | cons d ds ih =>
    have h1 := picHeader_wording he i (tableX i) (rowTop ns (i / 3)) d.name
    have h2 := picColumns_wording he (tableX i) (fun j => rowTop ns (i / 3) + 35 * ((j : Rat) + 1)) d.fields 0
    have h4 := ih (i + 1)
    have h3 : (picFrame (tableX i) (rowTop ns (i / 3)) (d.fields.length + 1) [(c!"stroke", .str c!"#494949"), (c!"fill", .str c!"#212121")]).wording esc = 0 := rfl
    simp only [List.zipIdx_cons, List.flatMap_cons, wordings_append, columnCount, nameBytes, List.map_cons, List.sum_cons, Nat.mul_add, picTable, wordings, h3] at h1 h2 h4 ⊢
    omega

/-- The texts of a picture. -/
theorem picture_wording (ds : List EntityDefinition) (rs : List Element) :
    (withNamespace (picture ds rs)).wording esc ≤ e * (nameBytes ds + 11 * columnCount ds) + wordings esc rs := by
  have h1 : ∀ (ns : List Nat) (es : List (EntityDefinition × Nat)), wordings esc (es.map fun (d, k) => picClip ns d k) = 0 := by
    intro ns es
    induction es with
    | nil => rfl
    | cons a es ih =>
      have h0 : (picClip ns a.1 a.2).wording esc = 0 := rfl
      rw [List.map_cons, wordings]
      exact (Nat.add_eq_zero_iff).mpr ⟨h0, ih⟩
  have h2 : wordings esc (ds.zipIdx.flatMap fun x => picTable (lineNumbers ds) x.1 x.2) ≤ e * (nameBytes ds + 11 * columnCount ds) :=
    picTables_wording he (lineNumbers ds) ds 0
  have h3 := h1 (lineNumbers ds) ds.zipIdx
  rw [picture]
  simp only [withNamespace, wordings, wordings_append, Element.wording, List.cons_append, Option.map_none, Option.getD_none, h3]
  omega
end

theorem picRelation_wording (esc : Str → Str) (a b : Point) (cs : List PathCommand) : wordings esc (picRelation a b cs) = 0 := rfl

end Seiren
