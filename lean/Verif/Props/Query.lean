import Verif.Proofs.Query
import Verif.Props.Pointer
/-!
# Property C10: `query` follows the pointer

`Eval` is RFC 6901's evaluation; `MissesKey`, `MissesIndex`, `NotAnIndex` are the three ways in which it fails.
-/

namespace Verif.Props
open Verif Verif.Spec Verif.Spec.Pointer

theorem view_refFree (docs : List Doc) (f : Nat) (n : Node) (h : n.RefFree) : view docs (f + 1) n = .ok n := by
  cases n <;> first | rfl | exact absurd h (by simp [Node.RefFree])

theorem queryDoc_loop (vw : Node → Res Node) (root : Node) (ptr : List Str) (h : ptr ≠ [[]]) :
    queryDoc vw ⟨root, []⟩ ptr = queryLoop vw root ptr := by
  unfold queryDoc
  split
  · next k =>
    have : k ≠ [] := by rintro rfl; exact h rfl
    simp [dictGet, this]
  · rfl

/-- C10: every value a pointer leads to is found (up to the size of number Python reads). -/
theorem C10_found (docs : List Doc) (f : Nat) (root n : Node) (ptr : List Str) (hr : root.RefFree) (h1 : ptr ≠ [[]])
    (hs : ∀ k ∈ ptr, ∀ i, ArrayIndex k i → k.length ≤ 4300) (h : Eval root ptr n) : queryDoc (view docs (f + 1)) ⟨root, []⟩ ptr = .ok n := by
  rw [queryDoc_loop _ _ _ h1]
  have := loop_found (b := []) (view_refFree docs f) hr h hs
  rwa [List.append_nil] at this

/-- C10 where no token is a number in any but the RFC's notation: `query` finds exactly what the pointer leads to,
and raises `KeyError`, `IndexError` and `ValueError` exactly where a member is missing, an index is too large and a token
is not an index.
Missing: the pointer `/`; other notations of numbers; numbers of more than 4300 digits (see the theorems below);
tokens with other than ASCII characters used on arrays. -/
theorem C10_query_partial (docs : List Doc) (f : Nat) (root : Node) (ptr : List Str) (hr : root.RefFree) (h1 : ptr ≠ [[]])
    (hs : ∀ k ∈ ptr, ∀ i, ArrayIndex k i → k.length ≤ 4300) (ha : ∀ k ∈ ptr, isAscii k = true) (hi : ∀ k ∈ ptr, IntText k → ∃ i, ArrayIndex k i) :
    (∀ n, queryDoc (view docs (f + 1)) ⟨root, []⟩ ptr = .ok n ↔ Eval root ptr n) ∧
    (queryDoc (view docs (f + 1)) ⟨root, []⟩ ptr = .err .keyError ↔ MissesKey root ptr) ∧
    (queryDoc (view docs (f + 1)) ⟨root, []⟩ ptr = .err .indexError ↔ MissesIndex root ptr) ∧
    (queryDoc (view docs (f + 1)) ⟨root, []⟩ ptr = .err .valueError ↔ NotAnIndex root ptr) ∧
    ((∃ n, queryDoc (view docs (f + 1)) ⟨root, []⟩ ptr = .ok n) ∨
      ∃ e ∈ [PyErr.keyError, .indexError, .valueError], queryDoc (view docs (f + 1)) ⟨root, []⟩ ptr = .err e) := by
  rw [queryDoc_loop _ _ _ h1]
  have hv := view_refFree docs f
  have found : ∀ n, Eval root ptr n → queryLoop (view docs (f + 1)) root ptr = .ok n := by
    intro n h
    have := loop_found (b := []) hv hr h hs
    rwa [List.append_nil] at this
  have hk := loop_key hv (ptr := ptr) hr hs
  have hx := loop_index hv (ptr := ptr) hr hs
  have hn := loop_value hv (ptr := ptr) hr hs ha hi
  rcases eval_cases root ptr hr with ⟨m, h⟩ | h | h | h
  · have e := found m h
    refine ⟨fun n => ⟨fun h' => ?_, found n⟩, ⟨fun h' => ?_, hk⟩, ⟨fun h' => ?_, hx⟩, ⟨fun h' => ?_, hn⟩, .inl ⟨m, e⟩⟩
      <;> rw [e] at h' <;> cases h'
    exact h
  · have e := hk h
    refine ⟨fun n => ⟨fun h' => ?_, found n⟩, ⟨fun _ => h, hk⟩, ⟨fun h' => ?_, hx⟩, ⟨fun h' => ?_, hn⟩, .inr ⟨_, by simp, e⟩⟩
      <;> rw [e] at h' <;> cases h'
  · have e := hx h
    refine ⟨fun n => ⟨fun h' => ?_, found n⟩, ⟨fun h' => ?_, hk⟩, ⟨fun _ => h, hx⟩, ⟨fun h' => ?_, hn⟩, .inr ⟨_, by simp, e⟩⟩
      <;> rw [e] at h' <;> cases h'
  · have e := hn h
    refine ⟨fun n => ⟨fun h' => ?_, found n⟩, ⟨fun h' => ?_, hk⟩, ⟨fun h' => ?_, hx⟩, ⟨fun _ => h, hn⟩, .inr ⟨_, by simp, e⟩⟩
      <;> rw [e] at h' <;> cases h'

/-- C10: a query given as text is the query with the tokens RFC 6901 assigns to the text, and a text that is no pointer
raises `ValueError`. -/
theorem C10_text (vw : Node → Res Node) (doc : Doc) (p : Str) :
    (∀ ts, IsPointer p → Denotes p ts → queryText vw doc p = queryDoc vw doc ts) ∧
    (¬ IsPointer p → queryText vw doc p = .err .valueError) := by
  constructor
  · intro ts h1 h2
    rw [queryText, (C02_parse_iff p ts).2 ⟨h1, h2⟩]; rfl
  · intro h
    rw [queryText, (C02_parse_total p).2 h]; rfl

/-- A document to query: `{"a": [1, {"": null}], "": true}`. -/
def sampleDoc : Node := .obj [(c!"a", .arr [.num (.fin 1), .obj [([], .null)]]), ([], .bool true)]

example : sampleDoc.RefFree := by simp [sampleDoc, Node.RefFree, Node.RefFreeL, Node.RefFreeD]

example : Eval sampleDoc [c!"a", c!"1", []] .null :=
  .member (k := c!"a") (x := .arr [.num (.fin 1), .obj [([], .null)]]) (by simp)
    (.index (i := 1) ⟨.inr ⟨'1', [], rfl, by decide⟩, by decide, by decide⟩ rfl (.member (k := []) (x := .null) (by simp) (.here _)))

example (docs : List Doc) (f : Nat) : queryText (view docs (f + 1)) ⟨sampleDoc, []⟩ c!"/a/1/" = .ok .null ∧
    queryText (view docs (f + 1)) ⟨sampleDoc, []⟩ c!"/b" = .err .keyError ∧
    queryText (view docs (f + 1)) ⟨sampleDoc, []⟩ c!"/a/2" = .err .indexError ∧
    queryText (view docs (f + 1)) ⟨sampleDoc, []⟩ c!"/a/x" = .err .valueError := ⟨rfl, rfl, rfl, rfl⟩

/-- The hypotheses of `C10_query_partial` hold for this pointer. -/
example : (∀ k ∈ [c!"a", c!"1", []], isAscii k = true) ∧ ∀ k ∈ [c!"a", c!"1", []], IntText k → ∃ i, ArrayIndex k i := by
  refine ⟨by decide, ?_⟩
  have no : ∀ k : Str, (∀ c ∈ k, asciiDigit c = false) → ¬ IntText k := by
    rintro k hk ⟨a, s, d, b, rfl, -, -, hd, -⟩
    cases hd <;> rename_i h <;> have := hk _ (by simp; exact .inr (.inr (.inl rfl))) <;> simp_all [asciiDigit]
  intro k hk
  simp only [List.mem_cons, List.not_mem_nil, or_false] at hk
  rcases hk with rfl | rfl | rfl
  · intro h; exact absurd h (no _ (by decide))
  · intro _; exact ⟨1, .inr ⟨'1', [], rfl, by decide⟩, by decide, by decide⟩
  · intro h; exact absurd h (no _ (by simp))

/-- C10 fails for the pointer `/`: it gives the whole document, although it leads to the member named `""`. -/
theorem C10_root_violated : ∃ root : Node, root.RefFree ∧ ∃ n, Eval root [[]] n ∧
    ∀ docs f, queryText (view docs (f + 1)) ⟨root, []⟩ c!"/" = .ok root ∧ root ≠ n :=
  ⟨sampleDoc, by simp [sampleDoc, Node.RefFree, Node.RefFreeL, Node.RefFreeD], .bool true,
    .member (k := []) (x := .bool true) (by simp) (.here _), fun _ _ => ⟨rfl, by simp [sampleDoc]⟩⟩

/-- C10 fails for other notations of numbers: `-1`, `+1`, ` 1`, `01` and `0_1` are taken for indices, though they lead
nowhere. -/
theorem C10_index_violated : ∃ root : Node, root.RefFree ∧
    ∀ k ∈ [c!"-1", c!"+1", c!" 1", c!"01", c!"0_1"], (∀ n, ¬ Eval root [k] n) ∧
      ∃ x, ∀ docs f, queryDoc (view docs (f + 1)) ⟨root, []⟩ [k] = .ok x := by
  refine ⟨.arr [.null, .bool true], by simp [Node.RefFree, Node.RefFreeL], ?_⟩
  have no : ∀ k : Str, (k ≠ c!"0" ∧ k.head? = some '0' ∨ ∃ c ∈ k, asciiDigit c = false) →
      ∀ n, ¬ Eval (.arr [.null, .bool true]) [k] n := by
    rintro k hk n h
    cases h with
    | index hi hx h =>
      obtain ⟨h0, hd, -⟩ := hi
      rcases hk with ⟨h1, h2⟩ | ⟨c, hc, h1⟩
      · rcases h0 with rfl | ⟨c, r, rfl, hc⟩
        · exact h1 rfl
        · exact hc (by simpa using h2)
      · have := hd c hc
        simp [asciiDigit] at h1
        exact absurd (h1 this.1) (by simpa using this.2)
  intro k hk
  simp only [List.mem_cons, List.not_mem_nil, or_false] at hk
  rcases hk with rfl | rfl | rfl | rfl | rfl <;>
    exact ⟨no _ (by decide), .bool true, fun _ _ => rfl⟩

end Verif.Props
