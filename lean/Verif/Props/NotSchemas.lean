import Verif.Props.Order
import Verif.Proofs.Formats
import Verif.Proofs.OnDemand
/-! # C103: schemas that are neither objects nor booleans -/

namespace Verif.Props
open Verif

/-- What a text or an array must not contain in order to pass unnoticed: the name of a keyword, or an element that cannot be compared
with one. -/
def Unnoticed (names : List Str) : Node → Prop
  | .str s => ∀ k ∈ names, ¬ k <:+: s
  | .arr xs => ∀ x ∈ xs, match x with
    | .null | .obj _ | .arr _ => True
    | .str s => s ∉ names
    | _ => False
  | _ => False

/-- The names of the assertions of a vocabulary. -/
def assertionNames (voc : List Kw) : List Str := (voc.filter Kw.isAssertion).map Kw.key

/-- No element of an array is a reference. -/
def Plain : Node → Prop
  | .arr xs => ∀ x ∈ xs, ∀ a b c, x ≠ .ref a b c
  | .obj _ | .bool _ | .ref .. => False
  | _ => True

theorem keyIn_ok (k : Str) (xs : List Node) : keyInArr k xs = .ok false ↔
    ∀ x ∈ xs, match x with
      | .null | .obj _ | .arr _ => True
      | .str s => s ≠ k
      | _ => False := by
  induction xs with
  | nil => simp [keyInArr]
  | cons x xs ih =>
    rw [List.forall_mem_cons, ← ih]
    cases x with
    | str s =>
      simp only [keyInArr]
      by_cases h : s = k <;> simp [h]
    | _ => simp [keyInArr]

theorem keyIn_cases (k : Str) {xs : List Node} (h : ∀ x ∈ xs, ∀ a b c, x ≠ .ref a b c) :
    keyInArr k xs = .ok false ∨ keyInArr k xs = .ok true ∨ keyInArr k xs = .err .typeError := by
  induction xs with
  | nil => exact .inl rfl
  | cons x xs ih =>
    have ih := ih fun y hy => h y (List.mem_cons_of_mem _ hy)
    unfold keyInArr
    cases x with
    | ref a b c => exact absurd rfl (h _ (List.mem_cons_self ..) a b c)
    | str s => simp only; split <;> simp_all
    | _ => simp [ih]

theorem nonObject_cases {n : Node} (hn : Plain n) (voc : List Kw) :
    loadNonObject n voc = .ok () ∨ loadNonObject n voc = .err .typeError := by
  induction voc with
  | nil => exact .inl rfl
  | cons k ks ih =>
    unfold loadNonObject
    split
    · cases n with
      | str s => simp only; split <;> simp [ih]
      | arr xs =>
        simp only
        rcases keyIn_cases k.key hn with e | e | e <;> rw [e] <;> simp [ih]
      | _ => simp
    · exact ih

theorem names_nil {voc : List Kw} : assertionNames voc = [] ↔ ∀ k ∈ voc, k.isAssertion = false := by
  simp [assertionNames, List.filter_eq_nil_iff]

theorem mem_names {voc : List Kw} {s : Str} : s ∈ assertionNames voc ↔ ∃ k ∈ voc, k.isAssertion = true ∧ k.key = s := by
  simp [assertionNames, and_assoc]

/-- C103, exactly: what happens if the schema, or a subschema, is a text, a number, null or an array.  The value does not matter: it is
accepted if no name of a keyword is found in the schema, otherwise, and for numbers and null, validation ends with `TypeError`. -/
theorem C103_decides_partial (w : World) (docs : List Doc) (voc : List Kw) (f : Nat) {n : Node} (hn : Plain n) (v : Val) (ctx : Ctx) :
    (assertionNames voc = [] ∨ Unnoticed (assertionNames voc) n → validateN w docs voc (f + 2) n v ctx = .ok ()) ∧
    (¬ (assertionNames voc = [] ∨ Unnoticed (assertionNames voc) n) → validateN w docs voc (f + 2) n v ctx = .err .typeError) := by
  have e : validateN w docs voc (f + 2) n v ctx = loadNonObject n voc := by
    cases n with
    | obj _ => cases hn
    | bool _ => cases hn
    | ref _ _ _ => cases hn
    | _ => rw [validateN]; rfl
  have key : loadNonObject n voc = .ok () ↔ assertionNames voc = [] ∨ Unnoticed (assertionNames voc) n := by
    rw [nonObject_ok]
    by_cases hv : assertionNames voc = []
    · refine ⟨fun _ => .inl hv, fun _ k hk ha => ?_⟩
      rw [names_nil.1 hv k hk] at ha; cases ha
    · obtain ⟨k0, hk0, ha0⟩ : ∃ k ∈ voc, k.isAssertion = true := by
        refine Classical.byContradiction fun hne => hv (names_nil.2 fun k hk => ?_)
        cases h : k.isAssertion with
        | false => rfl
        | true => exact absurd ⟨k, hk, h⟩ hne
      simp only [hv, false_or]
      cases n with
      | str s =>
        simp only [Unnoticed]
        refine ⟨fun h k hk => ?_, fun h k hk ha => ?_⟩
        · obtain ⟨k', hk', ha, rfl⟩ := mem_names.1 hk
          intro hi
          have := h k' hk' ha
          obtain ⟨a, b, e⟩ := hi
          rw [Formats.strContains_iff.2 ⟨a, b, by rw [← e, List.append_assoc]⟩] at this
          cases this
        · cases e : strContains k.key s with
          | false => rfl
          | true =>
            obtain ⟨a, b, e'⟩ := Formats.strContains_iff.1 e
            exact absurd ⟨a, b, by rw [e', List.append_assoc]⟩ (h _ (mem_names.2 ⟨k, hk, ha, rfl⟩))
      | arr xs =>
        simp only [Unnoticed, keyIn_ok]
        refine ⟨fun h x hx => ?_, fun h k hk ha x hx => ?_⟩
        · have h0 := h k0 hk0 ha0 x hx
          cases x with
          | str s =>
            intro hs
            obtain ⟨k', hk', ha, rfl⟩ := mem_names.1 hs
            exact h k' hk' ha _ hx rfl
          | _ => exact h0
        · have h0 := h x hx
          cases x with
          | str s => exact fun e => h0 (e ▸ mem_names.2 ⟨k, hk, ha, rfl⟩)
          | _ => exact h0
      | _ =>
        simp only [Unnoticed, iff_false]
        exact fun h => h k0 hk0 ha0
  rw [e]
  refine ⟨key.2, fun h => ?_⟩
  rcases nonObject_cases hn voc with h' | h'
  · exact absurd (key.1 h') h
  · exact h'

/-- `m` stands somewhere in `n`, members of references included. -/
inductive StandsIn (n : Node) : Node → Prop
  | refl : StandsIn n n
  | arr {xs x} : StandsIn n (.arr xs) → x ∈ xs → StandsIn n x
  | obj {kvs k x} : StandsIn n (.obj kvs) → (k, x) ∈ kvs → StandsIn n x
  | ref {own doc ptr k x} : StandsIn n (.ref own doc ptr) → (k, x) ∈ own → StandsIn n x

theorem resolveInD_mem {ip : Rfc3986.IpRe} {link : Str → Nat} {k : Str} {x : Node} : ∀ {kvs : List (Str × Node)}, (k, x) ∈ Spec.resolveInD ip link kvs →
    ∃ y, (k, y) ∈ kvs ∧ x = Spec.resolveIn ip link y
  | [], h => by simp [Spec.resolveInD] at h
  | (k', y) :: r, h => by
    simp only [Spec.resolveInD, List.mem_cons, Prod.mk.injEq] at h
    rcases h with ⟨rfl, rfl⟩ | h
    · exact ⟨y, List.mem_cons_self .., rfl⟩
    · obtain ⟨y', hy, e⟩ := resolveInD_mem h
      exact ⟨y', List.mem_cons_of_mem _ hy, e⟩

/-- What stands in a loaded document is data as it was, or such data with its references put in. -/
theorem standsIn_loaded {ip : Rfc3986.IpRe} {link : Str → Nat} {n0 m : Node} (hf : n0.RefFree) (h : StandsIn (Spec.resolveIn ip link n0) m) :
    m.RefFree ∨ ∃ m0 : Node, m0.RefFree ∧ m = Spec.resolveIn ip link m0 := by
  have member : ∀ {kvs : List (Str × Node)} {k : Str} {x : Node}, Node.RefFree (.obj kvs) → (k, x) ∈ Spec.resolveInD ip link kvs →
      x.RefFree ∨ ∃ m0 : Node, m0.RefFree ∧ x = Spec.resolveIn ip link m0 := fun hk hx => by
    obtain ⟨y, hy, e⟩ := resolveInD_mem hx
    rw [Node.RefFree] at hk
    exact .inr ⟨y, Node.refFreeD_iff.1 hk.2 _ hy, e⟩
  induction h with
  | refl => exact .inr ⟨n0, hf, rfl⟩
  | @arr xs x h hx ih =>
    rcases ih with ih | ⟨m0, h0, e⟩
    · rw [Node.RefFree] at ih
      exact .inl (Node.refFreeL_iff.1 ih _ hx)
    · cases m0 with
      | arr ys =>
        simp only [Spec.resolveIn, Node.arr.injEq] at e
        subst e
        rw [Node.RefFree] at h0
        exact .inl (Node.refFreeL_iff.1 h0 _ hx)
      | obj kvs =>
        rw [Spec.resolveIn] at e
        split at e <;> cases e
      | _ => simp [Spec.resolveIn] at e
  | @obj ms k x h hx ih =>
    rcases ih with ih | ⟨m0, h0, e⟩
    · rw [Node.RefFree] at ih
      exact .inl (Node.refFreeD_iff.1 ih.2 _ hx)
    · cases m0 with
      | obj kvs =>
        rw [Spec.resolveIn] at e
        split at e
        · cases e
        · cases e
          exact member h0 (Obj.dictDel_sub hx)
      | _ => simp [Spec.resolveIn] at e
  | @ref own doc ptr k x h hx ih =>
    rcases ih with ih | ⟨m0, h0, e⟩
    · rw [Node.RefFree] at ih
      exact ih.elim
    · cases m0 with
      | obj kvs =>
        rw [Spec.resolveIn] at e
        split at e
        · cases e
          exact member h0 hx
        · cases e
      | ref => rw [Node.RefFree] at h0; exact h0.elim
      | _ => simp [Spec.resolveIn] at e

/-- C103: in a loaded document no array contains a reference, since loading does not look into arrays; so all that stands in such a document and is neither object,
boolean nor reference is covered by `C103_decides_partial`. -/
theorem C103_loaded {ip : Rfc3986.IpRe} {link : Str → Nat} {n0 m : Node} (hf : n0.RefFree) (h : StandsIn (Spec.resolveIn ip link n0) m)
    (ho : ∀ kvs, m ≠ .obj kvs) (hb : ∀ b, m ≠ .bool b) (hr : ∀ o d p, m ≠ .ref o d p) : Plain m := by
  have key : ∀ xs, m = .arr xs → Node.RefFree (.arr xs) := by
    rintro xs rfl
    rcases standsIn_loaded hf h with h' | ⟨m0, h0, e⟩
    · exact h'
    · cases m0 with
      | arr ys =>
        simp only [Spec.resolveIn, Node.arr.injEq] at e
        subst e
        exact h0
      | obj kvs =>
        rw [Spec.resolveIn] at e
        split at e <;> cases e
      | _ => simp [Spec.resolveIn] at e
  cases m with
  | obj kvs => exact absurd rfl (ho kvs)
  | bool b => exact absurd rfl (hb b)
  | ref o d p => exact absurd rfl (hr o d p)
  | arr xs =>
    have := key xs rfl
    rw [Node.RefFree] at this
    rintro x hx a b c rfl
    have := Node.refFreeL_iff.1 this _ hx
    rw [Node.RefFree] at this
    exact this
  | _ => trivial

/-- `{"not": [{"$ref": "#"}], "items": {"$ref": "#"}}`: the element of the array stays an object. -/
example (ip : Rfc3986.IpRe) : ∃ n0 : Node, n0.RefFree ∧ StandsIn (Spec.resolveIn ip (fun _ => 0) n0) (.arr [.obj [(c!"$ref", .str c!"#")]]) :=
  ⟨.obj [(c!"not", .arr [.obj [(c!"$ref", .str c!"#")]]), (c!"items", .obj [(c!"$ref", .str c!"#")])], by simp [Node.RefFree, Node.RefFreeL, Node.RefFreeD],
    .obj (k := c!"not") (kvs := [(c!"not", .arr [.obj [(c!"$ref", .str c!"#")]]), (c!"items", .ref [(c!"$ref", .str c!"#")] 0 (Spec.refPointer ip c!"#"))])
      (by simpa [Spec.resolveIn, Spec.resolveInD, dictGet, dictDel] using StandsIn.refl) (by simp)⟩

/-- C103: numbers and null are refused by every vocabulary with an assertion. -/
theorem C103_refuses (w : World) (docs : List Doc) (voc : List Kw) (f : Nat) (v : Val) (ctx : Ctx) (h : ∃ k ∈ voc, k.isAssertion = true)
    (n : Node) (hn : n = .null ∨ ∃ q, n = .num q) : validateN w docs voc (f + 2) n v ctx = .err .typeError := by
  have hne : assertionNames voc ≠ [] := by
    obtain ⟨k, hk, ha⟩ := h
    intro e
    rw [names_nil.1 e k hk] at ha; cases ha
  rcases hn with rfl | ⟨q, rfl⟩
  · exact (C103_decides_partial w docs voc f (n := .null) trivial v ctx).2 (by simp [hne, Unnoticed])
  · exact (C103_decides_partial w docs voc f (n := .num q) trivial v ctx).2 (by simp [hne, Unnoticed])

theorem integer_unnoticed : Unnoticed (assertionNames draft2020Vocabulary) (.str c!"integer") := by
  have all : ∀ k ∈ assertionNames draft2020Vocabulary, strContains k c!"integer" = false := by decide
  intro k hk hi
  obtain ⟨a, b, e⟩ := hi
  have h1 := all k hk
  rw [Formats.strContains_iff.2 ⟨a, b, by rw [← e, List.append_assoc]⟩] at h1
  cases h1

/-- C103 fails: the text `"integer"` in the place of a schema accepts every value. -/
theorem C103_text_violated (w : World) (f : Nat) (v : Val) (ctx : Ctx) :
    validateN w [] draft2020Vocabulary (f + 2) (.str c!"integer") v ctx = .ok () :=
  (C103_decides_partial w [] draft2020Vocabulary f (n := .str c!"integer") trivial v ctx).1 (.inr integer_unnoticed)

/-- C103 fails: so does the array `[{"type": "string"}]`. -/
theorem C103_array_violated (w : World) (f : Nat) (v : Val) (ctx : Ctx) :
    validateN w [] draft2020Vocabulary (f + 2) (.arr [.obj [(c!"type", .str c!"string")]]) v ctx = .ok () :=
  (C103_decides_partial w [] draft2020Vocabulary f (n := .arr [.obj [(c!"type", .str c!"string")]]) (by intro x hx a b c h; simp at hx; subst hx; cases h) v ctx).1
    (.inr (by simp [Unnoticed]))

/-- Texts and arrays that are refused. -/
example : ¬ Unnoticed (assertionNames draft2020Vocabulary) (.str c!"prototype") ∧ ¬ Unnoticed (assertionNames draft2020Vocabulary) (.arr [.str c!"type"]) ∧
    ¬ Unnoticed (assertionNames draft2020Vocabulary) (.arr [.null, .bool true]) := by
  refine ⟨fun h => h c!"type" (by decide) ⟨c!"proto", [], rfl⟩, fun h => h (.str c!"type") (by simp) (by decide), fun h => h (.bool true) (by simp)⟩

example : (∃ k ∈ draft2020Vocabulary, k.isAssertion = true) := ⟨.type, by decide, rfl⟩

end Verif.Props
