import Verif.Model.EasyXml
import Verif.Spec.Xml
/-
C36: XML output can be read back.
-/
namespace Gyp
open Spec

/-! ### What a specification should be read as -/

/-- The events a reader should report for a sequence of contents. -/
def Forest.events : Forest → List Ev
  | .nil => []
  | .text s rest => s.map .char ++ rest.events
  | .elem name attrs kids rest =>
    [.start name attrs] ++ kids.events ++ [.stop name] ++ rest.events

/-- Has the sequence a child element? -/
def Forest.hasElement : Forest → Bool
  | .nil => false
  | .text _ r => r.hasElement
  | .elem .. => true

def pad (level : Nat) : List Ev := List.replicate (2 * level) (.char ' ')

/-- The same with the layout blanks of pretty printing: inside an element that has
child elements, every child stands on its own line; elements with only text are
left alone. -/
def Forest.prettyEvents (level : Nat) : Forest → List Ev
  | .nil => []
  | .text s rest => s.map .char ++ rest.prettyEvents level
  | .elem name attrs kids rest =>
    pad level ++ [.start name attrs] ++
    (if kids.hasElement then [.char '\n'] ++ kids.prettyEvents (level + 1) ++ pad level
      else kids.prettyEvents (level + 1)) ++
    [.stop name, .char '\n'] ++ rest.prettyEvents level

/-- A name XML allows. -/
def wfName (n : Str) : Prop := n ≠ [] ∧ ∀ c ∈ n, nameChar c = true

/-- Attributes XML can represent: distinct names, legal characters, and (where the
code deviates, see `C36_tab_in_attribute`) no tabs. -/
def wfAttrs (as : List (Str × Str)) : Prop :=
  (as.map Prod.fst).Nodup ∧
  ∀ kv ∈ as, wfName kv.1 ∧ (∀ c ∈ kv.2, xmlLegal c = true) ∧ '\t' ∉ kv.2

def Forest.wf : Forest → Prop
  | .nil => True
  | .text s rest => (∀ c ∈ s, xmlLegal c = true) ∧ rest.wf
  | .elem name attrs kids rest => wfName name ∧ wfAttrs attrs ∧ kids.wf ∧ rest.wf

/-! ### Proof -/

theorem xmlRun_append (s : XSt) (a b : Str) :
    xmlRun s (a ++ b) = (xmlRun s a).bind fun s' => xmlRun s' b := by
  induction a generalizing s with
  | nil => rfl
  | cons c cs ih =>
    simp only [List.cons_append, xmlRun]
    cases xmlStep s c with
    | none => rfl
    | some s' => exact ih s'

theorem nameChar_ne {c : Char} (h : nameChar c = true) :
    c ≠ '/' ∧ c ≠ '?' ∧ c ≠ ' ' ∧ c ≠ '>' ∧ c ≠ '=' := by
  refine ⟨?_, ?_, ?_, ?_, ?_⟩ <;> (rintro rfl; revert h; decide)

theorem run_tag (name m : Str) (st : List Str) (evs : List Ev)
    (h : ∀ c ∈ m, nameChar c = true) :
    xmlRun ⟨.tag name, st, evs⟩ m = some ⟨.tag (name ++ m), st, evs⟩ := by
  induction m generalizing name with
  | nil => simp [xmlRun]
  | cons c cs ih =>
    have hc := h c (by simp)
    simp only [xmlRun, xmlStep, hc, if_true, Option.bind_some]
    rw [ih _ (fun d hd => h d (by simp [hd]))]
    simp

theorem run_endTag (name m : Str) (st : List Str) (evs : List Ev)
    (h : ∀ c ∈ m, nameChar c = true) :
    xmlRun ⟨.endTag name, st, evs⟩ m = some ⟨.endTag (name ++ m), st, evs⟩ := by
  induction m generalizing name with
  | nil => simp [xmlRun]
  | cons c cs ih =>
    have hc := h c (by simp)
    simp only [xmlRun, xmlStep, hc, if_true, Option.bind_some]
    rw [ih _ (fun d hd => h d (by simp [hd]))]
    simp

theorem run_attName (name m n : Str) (as : List (Str × Str)) (st : List Str) (evs : List Ev)
    (h : ∀ c ∈ m, nameChar c = true) :
    xmlRun ⟨.attName name as n, st, evs⟩ m = some ⟨.attName name as (n ++ m), st, evs⟩ := by
  induction m generalizing n with
  | nil => simp [xmlRun]
  | cons c cs ih =>
    have hc := h c (by simp)
    simp only [xmlRun, xmlStep, hc, if_true, Option.bind_some]
    rw [ih _ (fun d hd => h d (by simp [hd]))]
    simp

/-- The character classes the escaping distinguishes. -/
theorem escape_cases (c : Char) (attr : Bool) :
    (c = '"' ∨ c = '<' ∨ c = '>' ∨ c = '&' ∨ c = '\n' ∨ c = '\r' ∨ (c = '\'' ∧ attr = false)) ∨
    (xmlEscapeChar attr c = [c] ∧
      c ≠ '"' ∧ c ≠ '<' ∧ c ≠ '&' ∧ c ≠ '\n' ∧ c ≠ '\r') := by
  by_cases h1 : c = '"'
  · exact Or.inl (Or.inl h1)
  by_cases h2 : c = '<'
  · exact Or.inl (by simp [h2])
  by_cases h3 : c = '>'
  · exact Or.inl (by simp [h3])
  by_cases h4 : c = '&'
  · exact Or.inl (by simp [h4])
  by_cases h5 : c = '\n'
  · exact Or.inl (by simp [h5])
  by_cases h6 : c = '\r'
  · exact Or.inl (by simp [h6])
  by_cases h7 : c = '\''
  · cases attr with
    | false => exact Or.inl (by simp [h7])
    | true => right; simp [xmlEscapeChar, xmlEscapeMap, h7]
  · right
    simp [xmlEscapeChar, xmlEscapeMap, h1, h2, h3, h4, h5, h6, h7]

theorem run_attVal (name n v val : Str) (as : List (Str × Str)) (st : List Str) (evs : List Ev)
    (h : ∀ c ∈ val, xmlLegal c = true) (ht : '\t' ∉ val) :
    xmlRun ⟨.attVal name as n v, st, evs⟩ (XmlEscape val true) =
      some ⟨.attVal name as n (v ++ val), st, evs⟩ := by
  induction val generalizing v with
  | nil => simp [XmlEscape, xmlRun]
  | cons c cs ih =>
    simp only [List.mem_cons, not_or] at ht
    have hc := h c (by simp)
    have ih := fun v => ih v (fun d hd => h d (by simp [hd])) ht.2
    unfold XmlEscape at ih ⊢
    rw [List.flatMap_cons, xmlRun_append]
    have hstep : xmlRun ⟨.attVal name as n v, st, evs⟩ (xmlEscapeChar true c) =
        some ⟨.attVal name as n (v ++ [c]), st, evs⟩ := by
      rcases escape_cases c true with h1 | ⟨h1, h2, h3, h4, h5, h6⟩
      · have e : xmlEntity c!"quot" = some '"' ∧ xmlEntity c!"lt" = some '<' ∧
            xmlEntity c!"gt" = some '>' ∧ xmlEntity c!"amp" = some '&' ∧
            xmlEntity c!"#xA" = some '\n' ∧ xmlEntity c!"#xD" = some '\r' :=
          ⟨rfl, rfl, rfl, rfl, rfl, rfl⟩
        obtain ⟨e1, e2, e3, e4, e5, e6⟩ := e
        rcases h1 with rfl | rfl | rfl | rfl | rfl | rfl | ⟨_, h⟩
        · simp [xmlEscapeChar, xmlEscapeMap, xmlRun, xmlStep, e1, hc]
        · simp [xmlEscapeChar, xmlEscapeMap, xmlRun, xmlStep, e2, hc]
        · simp [xmlEscapeChar, xmlEscapeMap, xmlRun, xmlStep, e3, hc]
        · simp [xmlEscapeChar, xmlEscapeMap, xmlRun, xmlStep, e4, hc]
        · simp [xmlEscapeChar, xmlEscapeMap, xmlRun, xmlStep, e5, hc]
        · simp [xmlEscapeChar, xmlEscapeMap, xmlRun, xmlStep, e6, hc]
        · cases h
      · rw [h1]
        have h7 : c ≠ '\t' := fun e => ht.1 e.symm
        simp [xmlRun, xmlStep, h2, h3, h4, h5, h6, h7, hc]
    rw [hstep, Option.bind_some, ih]
    simp

theorem run_text (s : Str) (top : Str) (st : List Str) (evs : List Ev)
    (h : ∀ c ∈ s, xmlLegal c = true) :
    xmlRun ⟨.content, top :: st, evs⟩ (XmlEscape s false) =
      some ⟨.content, top :: st, evs ++ s.map .char⟩ := by
  induction s generalizing evs with
  | nil => simp [XmlEscape, xmlRun]
  | cons c cs ih =>
    have hc := h c (by simp)
    have ih := fun evs => ih evs (fun d hd => h d (by simp [hd]))
    unfold XmlEscape at ih ⊢
    rw [List.flatMap_cons, xmlRun_append]
    have hstep : xmlRun ⟨.content, top :: st, evs⟩ (xmlEscapeChar false c) =
        some ⟨.content, top :: st, evs ++ [.char c]⟩ := by
      rcases escape_cases c false with h1 | ⟨h1, h2, h3, h4, h5, h6⟩
      · have e1 : xmlEntity c!"quot" = some '"' := rfl
        have e2 : xmlEntity c!"lt" = some '<' := rfl
        have e3 : xmlEntity c!"gt" = some '>' := rfl
        have e4 : xmlEntity c!"amp" = some '&' := rfl
        have e5 : xmlEntity c!"#xA" = some '\n' := rfl
        have e6 : xmlEntity c!"#xD" = some '\r' := rfl
        have e7 : xmlEntity c!"apos" = some '\'' := rfl
        rcases h1 with rfl | rfl | rfl | rfl | rfl | rfl | ⟨rfl, _⟩
        · simp [xmlEscapeChar, xmlEscapeMap, xmlRun, xmlStep, e1, hc, xmlChar]
        · simp [xmlEscapeChar, xmlEscapeMap, xmlRun, xmlStep, e2, hc, xmlChar]
        · simp [xmlEscapeChar, xmlEscapeMap, xmlRun, xmlStep, e3, hc, xmlChar]
        · simp [xmlEscapeChar, xmlEscapeMap, xmlRun, xmlStep, e4, hc, xmlChar]
        · simp [xmlEscapeChar, xmlEscapeMap, xmlRun, xmlStep, e5, hc, xmlChar]
        · simp [xmlEscapeChar, xmlEscapeMap, xmlRun, xmlStep, e6, hc, xmlChar]
        · simp [xmlEscapeChar, xmlEscapeMap, xmlRun, xmlStep, e7, hc, xmlChar]
      · rw [h1]
        simp [xmlRun, xmlStep, h3, h4, h6, hc, xmlChar]
    rw [hstep, Option.bind_some, ih]
    simp

/-- The reader has read a start tag up to and including some attributes. -/
def AfterAttrs (s : XSt) (name : Str) (as : List (Str × Str)) (st : List Str) (evs : List Ev) :
    Prop :=
  (s = ⟨.tag name, st, evs⟩ ∧ as = []) ∨ s = ⟨.attrs name as false, st, evs⟩

theorem run_attr (s : XSt) (name : Str) (as : List (Str × Str)) (st : List Str) (evs : List Ev)
    (h : AfterAttrs s name as st evs) (kv : Str × Str) (hn : wfName kv.1)
    (hv : ∀ c ∈ kv.2, xmlLegal c = true) (ht : '\t' ∉ kv.2) (hd : kv.1 ∉ as.map Prod.fst) :
    ∃ s', xmlRun s (c!" " ++ kv.1 ++ c!"=\"" ++ XmlEscape kv.2 true ++ c!"\"") = some s' ∧
      AfterAttrs s' name (as ++ [kv]) st evs := by
  obtain ⟨k, v⟩ := kv
  dsimp only at *
  have h1 : xmlRun s c!" " = some ⟨.attrs name as true, st, evs⟩ := by
    rcases h with ⟨rfl, rfl⟩ | rfl
    · have : nameChar ' ' = false := by decide
      simp [xmlRun, xmlStep, this]
    · simp [xmlRun, xmlStep]
  refine ⟨⟨.attrs name (as ++ [(k, v)]) false, st, evs⟩, ?_, Or.inr rfl⟩
  obtain ⟨hne, hnc⟩ := hn
  cases k with
  | nil => exact absurd rfl hne
  | cons x xs =>
    have hx := hnc x (by simp)
    obtain ⟨n1, n2, n3, n4, n5⟩ := nameChar_ne hx
    rw [List.append_assoc, List.append_assoc, List.append_assoc, xmlRun_append, h1,
      Option.bind_some, xmlRun_append]
    have h2 : xmlRun ⟨.attrs name as true, st, evs⟩ (x :: xs) =
        some ⟨.attName name as (x :: xs), st, evs⟩ := by
      simp only [xmlRun, xmlStep, n3, n4, n1, hx, if_false]
      simp only [and_self, if_true, Option.bind_some]
      rw [run_attName _ _ _ _ _ _ (fun c hc => hnc c (by simp [hc]))]
      rfl
    rw [h2, Option.bind_some, xmlRun_append]
    have h3 : xmlRun ⟨.attName name as (x :: xs), st, evs⟩ c!"=\"" =
        some ⟨.attVal name as (x :: xs) [], st, evs⟩ := by
      have : nameChar '=' = false := by decide
      simp [xmlRun, xmlStep, this, hd]
    rw [h3, Option.bind_some, xmlRun_append, run_attVal _ _ _ _ _ _ _ hv ht]
    simp [xmlRun, xmlStep]

theorem run_attrs (l : List (Str × Str)) (s : XSt) (name : Str) (as : List (Str × Str))
    (st : List Str) (evs : List Ev) (h : AfterAttrs s name as st evs)
    (hwf : ∀ kv ∈ l, wfName kv.1 ∧ (∀ c ∈ kv.2, xmlLegal c = true) ∧ '\t' ∉ kv.2)
    (hd : (as.map Prod.fst ++ l.map Prod.fst).Nodup) :
    ∃ s', xmlRun s (l.flatMap fun kv =>
        c!" " ++ kv.1 ++ c!"=\"" ++ XmlEscape kv.2 true ++ c!"\"") = some s' ∧
      AfterAttrs s' name (as ++ l) st evs := by
  induction l generalizing s as with
  | nil => exact ⟨s, rfl, by simpa using h⟩
  | cons kv kvs ih =>
    obtain ⟨w1, w2, w3⟩ := hwf kv (by simp)
    have hd1 : kv.1 ∉ as.map Prod.fst := by
      rw [List.map_cons, List.nodup_append] at hd
      intro hm
      exact hd.2.2 kv.1 hm kv.1 (by simp) rfl
    obtain ⟨s1, e1, e2⟩ := run_attr s name as st evs h kv w1 w2 w3 hd1
    rw [List.flatMap_cons, xmlRun_append, e1, Option.bind_some]
    obtain ⟨s2, e3, e4⟩ := ih s1 (as ++ [kv]) e2 (fun x hx => hwf x (by simp [hx])) (by
      simpa using hd)
    exact ⟨s2, e3, by simpa using e4⟩

/-- Start tag with attributes. -/
theorem run_start (name : Str) (attrs : List (Str × Str)) (st : List Str) (evs : List Ev)
    (hn : wfName name) (ha : wfAttrs attrs) (hroot : st = [] → evs = []) :
    ∃ s, xmlRun ⟨.content, st, evs⟩ (c!"<" ++ name ++ attrText attrs) = some s ∧
      AfterAttrs s name (pySorted pairLe attrs) st evs := by
  obtain ⟨hne, hnc⟩ := hn
  cases name with
  | nil => exact absurd rfl hne
  | cons x xs =>
    have hx := hnc x (by simp)
    obtain ⟨n1, n2, n3, n4, n5⟩ := nameChar_ne hx
    have h1 : xmlRun ⟨.content, st, evs⟩ (c!"<" ++ (x :: xs)) =
        some ⟨.tag (x :: xs), st, evs⟩ := by
      have : ¬ (st = [] ∧ evs ≠ []) := fun h => h.2 (hroot h.1)
      simp only [List.cons_append, List.nil_append, xmlRun, xmlStep, if_true, Option.bind_some,
        n1, n2, if_false, hx, this]
      rw [run_tag _ _ _ _ (fun c hc => hnc c (by simp [hc]))]
      rfl
    have hp := pySorted_perm pairLe attrs
    obtain ⟨s, e1, e2⟩ := run_attrs (pySorted pairLe attrs) ⟨.tag (x :: xs), st, evs⟩ (x :: xs) []
      st evs (Or.inl ⟨rfl, rfl⟩) (fun kv hkv => ha.2 kv (hp.mem_iff.mp hkv)) (by
        simpa using ((hp.map Prod.fst).nodup_iff).mpr ha.1)
    refine ⟨s, ?_, by simpa using e2⟩
    rw [xmlRun_append, h1, Option.bind_some]
    exact e1

/-- Layout events of the model with sorted attributes. -/
def Forest.sortedEvents (pretty : Bool) (level : Nat) : Forest → List Ev
  | .nil => []
  | .text s rest => s.map .char ++ rest.sortedEvents pretty level
  | .elem name attrs kids rest =>
    (indentation pretty level).map .char ++ [.start name (pySorted pairLe attrs)] ++
    ((if !kids.allStrings then (newLine pretty).map .char else []) ++
      kids.sortedEvents pretty (level + 1) ++
      (if !kids.allStrings then (indentation pretty level).map .char else [])) ++
    [.stop name] ++ (newLine pretty).map .char ++ rest.sortedEvents pretty level

theorem run_layout (l : Str) (hl : ∀ c ∈ l, c = ' ' ∨ c = '\n') (top : Str) (st : List Str)
    (evs : List Ev) :
    xmlRun ⟨.content, top :: st, evs⟩ l = some ⟨.content, top :: st, evs ++ l.map .char⟩ := by
  induction l generalizing evs with
  | nil => simp [xmlRun]
  | cons c cs ih =>
    have hstep : xmlStep ⟨.content, top :: st, evs⟩ c =
        some ⟨.content, top :: st, evs ++ [.char c]⟩ := by
      have e1 : xmlLegal ' ' = true := by decide
      have e2 : xmlLegal '\n' = true := by decide
      rcases hl c (by simp) with rfl | rfl <;> simp [xmlStep, xmlChar, e1, e2]
    rw [xmlRun, hstep, Option.bind_some, ih (fun d hd => hl d (by simp [hd]))]
    simp

theorem indentation_layout (pretty : Bool) (level : Nat) :
    ∀ c ∈ indentation pretty level, c = ' ' ∨ c = '\n' := by
  intro c hc
  unfold indentation at hc
  split at hc
  · left; exact List.eq_of_mem_replicate hc
  · simp at hc

theorem newLine_layout (pretty : Bool) : ∀ c ∈ newLine pretty, c = ' ' ∨ c = '\n' := by
  intro c hc
  unfold newLine at hc
  split at hc
  · right; simpa using hc
  · simp at hc

/-- An element without the layout around it. -/
def coreText (pretty : Bool) (level : Nat) (name : Str) (attrs : List (Str × Str))
    (kids : Forest) (kidsText : Str) : Str :=
  c!"<" ++ name ++ attrText attrs ++
  (if kids.isEmpty then c!"/>"
   else
    c!">" ++ ((if !kids.allStrings then newLine pretty else []) ++ kidsText ++
    (if !kids.allStrings then indentation pretty level else [])) ++ (c!"</" ++ name ++ c!">"))

theorem elementText_eq (pretty : Bool) (level : Nat) (name : Str) (attrs : List (Str × Str))
    (kids : Forest) (kidsText : Str) :
    elementText pretty level name attrs kids kidsText =
      indentation pretty level ++ coreText pretty level name attrs kids kidsText ++
        newLine pretty := by
  unfold elementText coreText
  by_cases h : kids.isEmpty = true
  · simp [h]
  · simp [h]

theorem run_core (pretty : Bool) (level : Nat) (name : Str) (attrs : List (Str × Str))
    (kids : Forest) (st : List Str) (evs : List Ev)
    (hn : wfName name) (ha : wfAttrs attrs) (hroot : st = [] → evs = [])
    (hk : ∀ evs, xmlRun ⟨.content, name :: st, evs⟩ (contentText pretty (level + 1) kids) =
      some ⟨.content, name :: st, evs ++ kids.sortedEvents pretty (level + 1)⟩) :
    xmlRun ⟨.content, st, evs⟩
      (coreText pretty level name attrs kids (contentText pretty (level + 1) kids)) =
      some ⟨.content, st, evs ++ ([.start name (pySorted pairLe attrs)] ++
        ((if !kids.allStrings then (newLine pretty).map .char else []) ++
          kids.sortedEvents pretty (level + 1) ++
          (if !kids.allStrings then (indentation pretty level).map .char else [])) ++
        [.stop name])⟩ := by
  obtain ⟨s, e1, e2⟩ := run_start name attrs st evs hn ha hroot
  unfold coreText
  rw [xmlRun_append, e1, Option.bind_some]
  have g1 : nameChar '>' = false := by decide
  have g2 : nameChar '/' = false := by decide
  by_cases h : kids.isEmpty = true
  · have hnil : kids = .nil := by
      cases kids with
      | nil => rfl
      | text => simp [Forest.isEmpty] at h
      | elem => simp [Forest.isEmpty] at h
    subst hnil
    rw [if_pos h]
    have : xmlRun s c!"/>" = some ⟨.content, st,
        evs ++ [.start name (pySorted pairLe attrs), .stop name]⟩ := by
      rcases e2 with ⟨rfl, h2⟩ | rfl
      · simp [xmlRun, xmlStep, g2, h2]
      · simp [xmlRun, xmlStep]
    rw [this]
    simp [Forest.allStrings, Forest.sortedEvents]
  · rw [if_neg h]
    have h1 : xmlRun s c!">" = some ⟨.content, name :: st,
        evs ++ [.start name (pySorted pairLe attrs)]⟩ := by
      rcases e2 with ⟨rfl, h2⟩ | rfl
      · simp [xmlRun, xmlStep, g1, h2, xmlOpen]
      · simp [xmlRun, xmlStep, xmlOpen]
    rw [xmlRun_append, xmlRun_append, h1, Option.bind_some, xmlRun_append, xmlRun_append]
    have h2 : ∀ evs, xmlRun ⟨.content, name :: st, evs⟩
        (if !kids.allStrings then newLine pretty else []) =
        some ⟨.content, name :: st, evs ++
          (if !kids.allStrings then (newLine pretty).map .char else [])⟩ := by
      intro evs
      by_cases hm : (!kids.allStrings) = true
      · rw [if_pos hm, if_pos hm, run_layout _ (newLine_layout pretty)]
      · rw [if_neg hm, if_neg hm]; simp [xmlRun]
    have h3 : ∀ evs, xmlRun ⟨.content, name :: st, evs⟩
        (if !kids.allStrings then indentation pretty level else []) =
        some ⟨.content, name :: st, evs ++
          (if !kids.allStrings then (indentation pretty level).map .char else [])⟩ := by
      intro evs
      by_cases hm : (!kids.allStrings) = true
      · rw [if_pos hm, if_pos hm, run_layout _ (indentation_layout pretty level)]
      · rw [if_neg hm, if_neg hm]; simp [xmlRun]
    rw [h2, Option.bind_some, hk, Option.bind_some, h3, Option.bind_some]
    have h4 : ∀ evs, xmlRun ⟨.content, name :: st, evs⟩ (c!"</" ++ name ++ c!">") =
        some ⟨.content, st, evs ++ [.stop name]⟩ := by
      intro evs
      have a1 : xmlRun ⟨.content, name :: st, evs⟩ c!"</" =
          some ⟨.endTag [], name :: st, evs⟩ := by simp [xmlRun, xmlStep]
      rw [xmlRun_append, xmlRun_append, a1, Option.bind_some, run_endTag _ _ _ _ hn.2]
      simp [xmlRun, xmlStep, g1]
    rw [h4]
    simp

theorem run_content (pretty : Bool) (f : Forest) (level : Nat) (top : Str) (st : List Str)
    (evs : List Ev) (hwf : f.wf) :
    xmlRun ⟨.content, top :: st, evs⟩ (contentText pretty level f) =
      some ⟨.content, top :: st, evs ++ f.sortedEvents pretty level⟩ := by
  induction f generalizing level top st evs with
  | nil => simp [contentText, xmlRun, Forest.sortedEvents]
  | text s rest ih =>
    simp only [contentText, Forest.sortedEvents]
    rw [xmlRun_append, run_text s top st evs hwf.1, Option.bind_some, ih _ _ _ _ hwf.2]
    simp
  | elem name attrs kids rest ih1 ih2 =>
    obtain ⟨w1, w2, w3, w4⟩ := hwf
    simp only [contentText, Forest.sortedEvents]
    rw [elementText_eq, xmlRun_append, xmlRun_append, xmlRun_append,
      run_layout _ (indentation_layout pretty level), Option.bind_some,
      run_core pretty level name attrs kids (top :: st) _ w1 w2 (by simp)
        (fun evs => ih1 (level + 1) name (top :: st) evs w3), Option.bind_some,
      run_layout _ (newLine_layout pretty), Option.bind_some, ih2 level top st _ w4]
    simp

theorem run_declaration (encoding : Str) (h : '?' ∉ encoding) :
    xmlRun ⟨.content, [], []⟩ (c!"<?xml version=\"1.0\" encoding=\"" ++ encoding ++ c!"\"?>") =
      some ⟨.content, [], []⟩ := by
  have hd : ∀ (t : Str), '?' ∉ t →
      xmlRun ⟨.decl false, [], []⟩ t = some ⟨.decl false, [], []⟩ := by
    intro t
    induction t with
    | nil => intro _; rfl
    | cons c cs ih =>
      intro hh
      simp only [List.mem_cons, not_or] at hh
      have hc : c ≠ '?' := fun e => hh.1 e.symm
      have hs : xmlStep ⟨.decl false, [], []⟩ c = some ⟨.decl false, [], []⟩ := by
        simp [xmlStep, hc]
      rw [xmlRun, hs, Option.bind_some, ih hh.2]
  rw [show c!"<?xml version=\"1.0\" encoding=\"" ++ encoding ++ c!"\"?>" =
    c!"<?" ++ ((c!"xml version=\"1.0\" encoding=\"" ++ encoding ++ c!"\"") ++ c!"?>") by simp]
  have h1 : xmlRun ⟨.content, [], []⟩ c!"<?" = some ⟨.decl false, [], []⟩ := by
    simp [xmlRun, xmlStep]
  rw [xmlRun_append, h1, Option.bind_some, xmlRun_append, hd _ (by
    simp only [List.mem_append, not_or]
    exact ⟨⟨by decide, h⟩, by decide⟩)]
  simp [xmlRun, xmlStep]

theorem allStrings_iff (f : Forest) : (!f.allStrings) = f.hasElement := by
  induction f with
  | nil => rfl
  | text s r ih => simpa [Forest.allStrings, Forest.hasElement] using ih
  | elem => rfl

theorem same_refl (e : Ev) : Ev.same e e := by
  cases e <;> simp [Ev.same]

theorem same_list_refl (l : List Ev) : List.Forall₂ Ev.same l l := by
  induction l with
  | nil => exact .nil
  | cons a as ih => exact .cons (same_refl a) ih

theorem same_append {a b c d : List Ev} (h1 : List.Forall₂ Ev.same a b)
    (h2 : List.Forall₂ Ev.same c d) : List.Forall₂ Ev.same (a ++ c) (b ++ d) := by
  induction h1 with
  | nil => exact h2
  | cons h _ ih => exact .cons h ih

theorem sorted_same_plain (f : Forest) (level : Nat) :
    List.Forall₂ Ev.same (f.sortedEvents false level) f.events := by
  induction f generalizing level with
  | nil => exact .nil
  | text s rest ih => exact same_append (same_list_refl _) (ih level)
  | elem name attrs kids rest ih1 ih2 =>
    simp only [Forest.sortedEvents, Forest.events, indentation, newLine]
    simp only [Bool.false_eq_true, if_false, ite_self, List.map_nil, List.nil_append, List.append_nil]
    refine same_append (same_append (same_append ?_ (ih1 _)) (same_list_refl _)) (ih2 _)
    exact .cons ⟨rfl, pySorted_perm _ _⟩ .nil

theorem sorted_same_pretty (f : Forest) (level : Nat) :
    List.Forall₂ Ev.same (f.sortedEvents true level) (f.prettyEvents level) := by
  induction f generalizing level with
  | nil => exact .nil
  | text s rest ih => exact same_append (same_list_refl _) (ih level)
  | elem name attrs kids rest ih1 ih2 =>
    simp only [Forest.sortedEvents, Forest.prettyEvents, indentation, newLine, if_true,
      List.map_replicate, List.map_cons, List.map_nil, allStrings_iff]
    refine same_append ?_ (ih2 _)
    rw [show ∀ a : List Ev, a ++ [Ev.stop name, Ev.char '\n'] =
      a ++ [Ev.stop name] ++ [Ev.char '\n'] by intro a; simp]
    refine same_append (same_append (same_append (same_append (same_list_refl _) ?_) ?_)
      (same_list_refl _)) (same_list_refl _)
    · exact .cons ⟨rfl, pySorted_perm _ _⟩ .nil
    · by_cases h : kids.hasElement = true
      · simp only [h, if_true]
        exact same_append (same_append (same_list_refl _) (ih1 _)) (same_list_refl _)
      · simp only [h, if_false, List.nil_append, List.append_nil]
        simpa using ih1 _

/-- C36: for every element specification, an XML reader reads the compact output back
as exactly that element: its attributes, texts and children, up to the order of
attributes. -/
theorem C36_read_back (encoding name : Str) (attrs : List (Str × Str)) (kids : Forest)
    (henc : '?' ∉ encoding) (hwf : (Forest.elem name attrs kids .nil).wf) :
    ∃ evs, xmlRead (XmlToString encoding false name attrs kids) = some evs ∧
      List.Forall₂ Ev.same evs (Forest.elem name attrs kids .nil).events := by
  obtain ⟨w1, w2, w3, _⟩ := hwf
  refine ⟨(Forest.elem name attrs kids .nil).sortedEvents false 0, ?_, sorted_same_plain _ _⟩
  unfold xmlRead XmlToString
  rw [xmlRun_append, xmlRun_append, run_declaration encoding henc]
  simp only [contentText, elementText_eq, indentation, newLine, Option.bind_some,
    Bool.false_eq_true, if_false, List.nil_append, List.append_nil, xmlRun]
  rw [run_core false 0 name attrs kids [] [] w1 w2 (fun _ => rfl)
    (fun evs => run_content false kids 1 name [] evs w3)]
  simp [Forest.sortedEvents, indentation, newLine]

/-- C36 for the indented output: the reader sees the same element with layout blanks
only between child elements, never inside an element that holds just text. -/
theorem C36_read_back_pretty (encoding name : Str) (attrs : List (Str × Str)) (kids : Forest)
    (henc : '?' ∉ encoding) (hwf : (Forest.elem name attrs kids .nil).wf) :
    ∃ evs, xmlRead (XmlToString encoding true name attrs kids) = some evs ∧
      List.Forall₂ Ev.same (evs ++ [.char '\n'])
        ((Forest.elem name attrs kids .nil).prettyEvents 0) := by
  obtain ⟨w1, w2, w3, _⟩ := hwf
  refine ⟨[] ++ ([.start name (pySorted pairLe attrs)] ++
        ((if !kids.allStrings then (newLine true).map .char else []) ++
          kids.sortedEvents true 1 ++
          (if !kids.allStrings then (indentation true 0).map .char else [])) ++
        [.stop name]), ?_, ?_⟩
  · unfold xmlRead XmlToString
    rw [xmlRun_append, xmlRun_append, run_declaration encoding henc]
    have h1 : xmlRun ⟨.content, [], []⟩ (newLine true) = some ⟨.content, [], []⟩ := by
      have : xmlLegal '\n' = true := by decide
      simp [newLine, xmlRun, xmlStep, xmlChar, this]
    rw [Option.bind_some, h1, Option.bind_some]
    simp only [contentText, elementText_eq, List.append_nil]
    have h0 : indentation true 0 = [] := rfl
    rw [h0, List.nil_append, xmlRun_append]
    have hr := run_core true 0 name attrs kids [] [] w1 w2 (fun _ => rfl)
      (fun evs => run_content true kids 1 name [] evs w3)
    rw [h0] at hr
    rw [hr, Option.bind_some]
    have h2 : ∀ evs, xmlRun ⟨.content, [], evs⟩ (newLine true) = some ⟨.content, [], evs⟩ := by
      intro evs
      have : xmlLegal '\n' = true := by decide
      simp [newLine, xmlRun, xmlStep, xmlChar, this]
    rw [h2]
    simp
  · have := sorted_same_pretty (Forest.elem name attrs kids .nil) 0
    simp only [Forest.sortedEvents] at this
    simpa [indentation, newLine] using this

example : ∃ evs, xmlRead (XmlToString c!"utf-8" true c!"a" [(c!"y", c!"\"<&>'"), (c!"x", c!"\n")]
      (.elem c!"b" [] (.text c!"]]> </a>" .nil) .nil)) = some evs ∧
    List.Forall₂ Ev.same (evs ++ [.char '\n'])
      ((Forest.elem c!"a" [(c!"y", c!"\"<&>'"), (c!"x", c!"\n")]
        (.elem c!"b" [] (.text c!"]]> </a>" .nil) .nil) .nil).prettyEvents 0) := by
  apply C36_read_back_pretty _ _ _ _ (by decide)
  simp only [Forest.wf, wfName, wfAttrs]
  decide

/-- Where the code deviates: a tab in an attribute value is written as is, and XML
readers normalise it to a space. -/
theorem C36_tab_in_attribute :
    xmlRead (XmlToString c!"utf-8" false c!"a" [(c!"x", c!"p\tq")] .nil) =
      some [.start c!"a" [(c!"x", c!"p q")], .stop c!"a"] := by decide +kernel

end Gyp
