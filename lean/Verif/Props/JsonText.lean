import Verif.Proofs.JsonText
import Verif.Spec.Json
import Verif.Props.Files
/-! # Property C104: a JSON file is read as the data it says -/

namespace Verif.Props
open Verif Num Files JsonText

/-- C104: `load_json` returns data exactly for the texts of its dialect (RFC 8259, and the words NaN and Infinity; integers of at most
4300 digits, other numbers in the range of `Decimal`), and the data the text stands for: every number with its exact value, every name of an object with the value given last. -/
theorem C104_decides (s : Str) (v : Val) : loads s = .ok v ↔ Document python s v := loads_iff s v

theorem limited_wider {m : Nat} (hm : m ≤ 4300) : Wider (limited m) python :=
  ⟨by intro h; simp [limited] at h, fun _ h => Nat.le_trans h hm, fun _ => rfl⟩

/-- C104: texts of RFC 8259 with integers of at most 4300 digits and other numbers in the range of `Decimal` are read. -/
theorem C104_reads {s : Str} {v : Val} (h : Document (limited 4300) s v) : loads s = .ok v :=
  (loads_iff s v).2 (document_wider (limited_wider (Nat.le_refl _)) h)

/-- C104: texts of RFC 8259 without very long runs of digits are read.  Without the hypothesis this is false
(`C104_long_violated`, `C104_enormous_violated`). -/
theorem C104_reads_partial {s : Str} {v : Val} (h : Document rfc8259 s v) (hd : ShortDigits 17 s) : loads s = .ok v := by
  obtain ⟨w, t, w', hw, hw', ht, rfl⟩ := h
  have ht := text_short ht (ShortDigits.part (a := w) (b := w') (by simpa using hd))
  refine (loads_iff _ v).2 ⟨w, t, w', hw, hw', text_wider (limited_wider (by decide)) ht, rfl⟩

/-- C104: what is read without the words NaN and Infinity is a text of RFC 8259.  Without the hypothesis this is false
(`C104_constants_violated`). -/
theorem C104_strict_partial {s : Str} {v : Val} (h : loads s = .ok v) (hc : NoConstants s) : Document rfc8259 s v := by
  obtain ⟨w, t, w', hw, hw', ht, rfl⟩ := (loads_iff s v).1 h
  exact ⟨w, t, w', hw, hw', text_strict ht (NoConstants.part (a := w) (b := w') (by simpa using hc)), rfl⟩

/-- C104: every other text is refused with `JSONDecodeError` (a `ValueError`), as long as it has no escapes for halves of surrogate pairs,
which the model leaves out, and no numbers out of the range of `Decimal`.  Without this hypothesis it is false (`C104_enormous_violated`). -/
theorem C104_refuses_partial (s : Str) (hu : ¬ Unusual s) (he : ¬ Enormous s) (h : ∀ v, ¬ Document python s v) : loads s = .err .valueError := by
  have hf := loads_fine s
  cases e : loads s with
  | ok v => exact absurd ((loads_iff s v).1 e) (h v)
  | err x =>
    rcases hf.2 x e with rfl | ⟨_, hx⟩ | ⟨_, hx⟩
    · rfl
    · exact absurd hx hu
    · exact absurd hx he
  | timeout => exact absurd e hf.1

/-- C104: reading ends for every text. -/
theorem C104_ends (s : Str) : loads s ≠ .timeout := (loads_fine s).1

/-- C104: no text stands for two different data. -/
theorem C104_unique {s : Str} {v v' : Val} (h : Document python s v) (h' : Document python s v') : v = v' := by
  have h1 := (loads_iff s v).2 h
  rw [(loads_iff s v').2 h'] at h1
  cases h1; rfl

/-- C104: the data of a text of RFC 8259 holds no binary floating point numbers. -/
theorem C104_exact {s : Str} {v : Val} (h : Document rfc8259 s v) : Exact v := by
  obtain ⟨w, t, w', _, _, ht, _⟩ := h
  exact text_exact rfl ht

theorem exact_plain {v : Val} (h : Exact v) : v.Plain := by
  induction h with
  | list h ih => rw [Val.Plain, Val.plainL_iff]; exact ih
  | dict h1 h2 ih => rw [Val.Plain, Val.plainD_iff]; exact ⟨h1, ih⟩
  | dec q => simp [Val.Plain, notNaN]
  | _ => simp [Val.Plain]

/-- C104: the data read from a text without the words NaN and Infinity is plain, which other properties ask of the data of files. -/
theorem C104_plain {s : Str} {v : Val} (h : loads s = .ok v) (hc : NoConstants s) : v.Plain := exact_plain (C104_exact (C104_strict_partial h hc))

/-- C104: loading a file with the extension `.json` makes a schema of the data its text stands for. -/
theorem C104_file {V D : Type} (disk : Disk V D) (make : Val → V → Res D) (hd : ∀ text voc, disk.json text voc = (loads text >>= fun v => make v voc))
    {name text : Str} (hn : HasExt c!".json" name) (ho : disk.openFile name = .ok text) {v : Val} (h : Document python text v) (voc : V) :
    loadFile disk name voc = make v voc := by
  have he : (splitext name).2 = c!".json" := (C83_extension name c!".json" ⟨c!"json", rfl, by decide, by decide⟩).2 hn
  simp only [loadFile, ho, Res.ok_bind, he]
  rw [if_neg (by decide), if_neg (by decide), if_pos trivial, hd, (loads_iff text v).2 h, Res.ok_bind]

/-- C104: a file whose text is refused raises `ValueError`. -/
theorem C104_file_refused_partial {V D : Type} (disk : Disk V D) (make : Val → V → Res D)
    (hd : ∀ text voc, disk.json text voc = (loads text >>= fun v => make v voc)) {name text : Str} (hn : HasExt c!".json" name)
    (ho : disk.openFile name = .ok text) (hu : ¬ Unusual text) (he : ¬ Enormous text) (h : ∀ v, ¬ Document python text v) (voc : V) :
    loadFile disk name voc = .err .valueError := by
  rw [((C83_file disk name voc).2 text ho).1 hn, hd, C104_refuses_partial text hu he h]; rfl

open Resolver in
/-- C104: asked for a uri without scheme or with the scheme `file`, the loader makes a schema of the data the text at its path stands
for, whatever was resolved before. -/
theorem C104_uri {V D : Type} (disk : Disk V D) (make : Val → V → Res D) (hd : ∀ text voc, disk.json text voc = (loads text >>= fun v => make v voc))
    (h : List Op) (u : Uri) (hr : ∀ op ∈ h, ¬ Registers u.scheme op) (hs : u.scheme = [] ∨ u.scheme = c!"file")
    {text : Str} (hn : HasExt c!".json" u.path) (ho : disk.openFile u.path = .ok text) {v : Val} (hv : Document python text v) (voc : V) :
    (loader disk u voc (exec h)).1 = make v voc := by
  rw [C83_load disk h u voc hr, if_pos hs]
  exact C104_file disk make hd hn ho hv voc

/-- a disk with one file -/
def jsonDisk (text : Str) : Disk Unit Val := ⟨fun n => if n = c!"a.json" then .ok text else .err .fileNotFound,
  fun t _ => loads t >>= fun v => .ok v, fun _ _ => .err .unmodelled⟩

example : loadFile (jsonDisk c!"[true]") c!"a.json" () = .ok (.list [.bool true]) :=
  C104_file (jsonDisk c!"[true]") (fun v _ => .ok v) (fun _ _ => rfl) ⟨[], c!"a", rfl, by decide, .inl rfl, 'a', by decide, by decide⟩ rfl
    ((loads_iff ..).1 rfl) ()

example : (loader (jsonDisk c!"[true]") ⟨c!"file", ⟨[], [], []⟩, c!"a.json", [], []⟩ () (Resolver.exec [])).1 = .ok (.list [.bool true]) :=
  C104_uri (jsonDisk c!"[true]") (fun v _ => .ok v) (fun _ _ => rfl) [] _ (by simp) (.inr rfl) ⟨[], c!"a", rfl, by decide, .inl rfl, 'a', by decide, by decide⟩ rfl
    ((loads_iff ..).1 rfl) ()

/-- C104 fails: the word NaN is no text of RFC 8259, but is read. -/
theorem C104_constants_violated : loads c!"NaN" = .ok (.flt .nan) ∧ ∀ v, ¬ Document rfc8259 c!"NaN" v := by
  refine ⟨rfl, ?_⟩
  intro v h
  have h2 : loads c!"NaN" = .ok v := C104_reads_partial h ?_
  · cases h2
    cases C104_exact h
  · rintro a ds b e ⟨hne, hd⟩
    exfalso
    cases ds with
    | nil => exact hne rfl
    | cons d ds =>
      have : d ∈ c!"NaN" := by rw [e]; simp
      have h3 := hd d (by simp)
      revert h3
      simp only [List.mem_cons, List.not_mem_nil, or_false] at this
      rcases this with rfl | rfl | rfl <;> decide

/-- C104 fails: an integer of more than 4300 digits is a text of RFC 8259, but is refused (`int` of Python 3.11 has a limit). -/
theorem C104_long_violated (n : Nat) (hn : 4300 < n) : (∃ v, Document rfc8259 (List.replicate n '7') v) ∧ loads (List.replicate n '7') = .err .valueError := by
  have hd : Digits (List.replicate n '7') := by
    refine ⟨by simp; omega, ?_⟩
    intro c hc
    rw [(List.mem_replicate.1 hc).2]; decide
  have hi : IntPart (List.replicate n '7') := by
    refine .inr ⟨hd, ?_⟩
    match n, hn with
    | n + 1, _ => simp [List.replicate_succ]
  constructor
  · refine ⟨_, [], List.replicate n '7', [], (by intro c hc; cases hc), (by intro c hc; cases hc), .num ⟨false, List.replicate n '7', [], [], [], none, hi, .inl ⟨rfl, rfl⟩, .inl ⟨rfl, rfl⟩, by simp, .inl ⟨rfl, rfl, trivial, rfl⟩⟩, by simp⟩
  · have e1 : intPart (List.replicate n '7') = .ok (List.replicate n '7', []) := by
      have := intPart_complete (r := []) hi (by intro c hc; cases hc)
      simpa using this
    have e2 : number (List.replicate n '7') = .err .valueError := by
      have es : sign (List.replicate n '7') = (false, List.replicate n '7') := by
        match n, hn with
        | n + 1, _ => rfl
      simp only [number, es, e1, Res.ok_bind, fracPart, expPart]
      rw [if_pos ⟨trivial, trivial⟩, if_pos (by simpa using hn)]
    have e3 : skipWs (List.replicate n '7') = List.replicate n '7' := by
      match n, hn with
      | n + 1, _ => rfl
    have e4 : value (2 * (List.replicate n '7').length + 1) (List.replicate n '7') = .err .valueError := by
      rw [← e2]
      match n, hn with
      | n + 1, _ =>
        rw [List.replicate_succ, value_literal _ (by decide)]
        rfl
    rw [loads, e3, e4]; rfl

/-- C104 fails: a number out of the range of `Decimal` is a text of RFC 8259, but `InvalidOperation` is raised, which is no `ValueError`. -/
theorem C104_enormous_violated :
    (∃ v, Document rfc8259 c!"1e1000000000000000000" v) ∧ loads c!"1e1000000000000000000" = .err .invalidOperation := by
  constructor
  · refine ⟨_, [], c!"1e1000000000000000000", [], (by intro c hc; cases hc), (by intro c hc; cases hc),
      .num ⟨false, ['1'], [], [], c!"e1000000000000000000", some (10 ^ 18), .inr ⟨⟨by simp, by decide⟩, by decide⟩, .inl ⟨rfl, rfl⟩,
        .inr ⟨'e', c!"1000000000000000000", .inl rfl, ⟨by simp, by decide⟩, .inl ⟨.inl rfl, rfl⟩⟩, rfl,
        .inr ⟨by simp, (by intro h; cases h), rfl⟩⟩, rfl⟩
  · rfl

/-- the largest exponent is read -/
example : ∃ q, loads c!"1e999999999999999999" = .ok (.dec (.fin q)) := ⟨_, C104_reads
  ⟨[], c!"1e999999999999999999", [], (by intro c hc; cases hc), (by intro c hc; cases hc),
    .num ⟨false, ['1'], [], [], c!"e999999999999999999", some 999999999999999999, .inr ⟨⟨by simp, by decide⟩, by decide⟩, .inl ⟨rfl, rfl⟩,
      .inr ⟨'e', c!"999999999999999999", .inl rfl, ⟨by simp, by decide⟩, .inl ⟨.inl rfl, rfl⟩⟩, rfl,
      .inr ⟨by simp, fun _ => (fits_iff _ _ _ (.inl (by simp))).1 (by decide +kernel), rfl⟩⟩, rfl⟩⟩

/-! Examples -/

/-- a text with everything -/
def jsonSample : Str := c!" {\"a\": [1, -2.50e1, \"x\\u00e9\\n\\ud83d\\ude00\", null], \"b\" : {}, \"a\": true }\n"

/-- its data -/
def jsonData : Val := .dict [(c!"a", .bool true), (c!"b", .dict [])]

theorem jsonSample_data : Document rfc8259 jsonSample jsonData :=
  C104_strict_partial rfl (by
    constructor
    · intro h; have : 'N' ∈ jsonSample := h.subset (by decide); revert this; decide
    · intro h; have : 'I' ∈ jsonSample := h.subset (by decide); revert this; decide)

example : Document (limited 4300) c!"[0]" (.list [.int 0]) :=
  ⟨[], c!"[0]", [], (by intro c hc; cases hc), (by intro c hc; cases hc),
    .arr (w := []) (t := ['0']) (by intro c hc; cases hc) (.one (t := ['0']) (w := []) (.num ⟨false, ['0'], [], [], [], none, .inl rfl, .inl ⟨rfl, rfl⟩, .inl ⟨rfl, rfl⟩, rfl,
      .inl ⟨rfl, rfl, (show 1 ≤ 4300 by decide), rfl⟩⟩) (by intro c hc; cases hc)), rfl⟩

example : ∃ a b, loads c!"[1, -2.50e1, 1E+2, \"x\\u00e9\\n\\ud83d\\ude00\", null]" =
    .ok (.list [.int 1, .dec (.fin a), .dec (.fin b), .str ['x', Char.ofNat 233, '\n', Char.ofNat 0x1F600], .null]) ∧ a = -25 ∧ b = 100 :=
  ⟨_, _, rfl, by decide +kernel, by decide +kernel⟩

example : ¬ Unusual c!"[1,]" ∧ ¬ Enormous c!"[1,]" ∧ ∀ v, ¬ Document python c!"[1,]" v := by
  refine ⟨?_, ?_, ?_⟩
  · rintro ⟨a, b, e, _⟩
    have : '\\' ∈ c!"[1,]" := by rw [e]; simp
    revert this; decide
  · rintro ⟨a, ip, fr, ds, ex, x, b, e, _, hf, hx, hn, _⟩
    have key : ∀ c, c = '.' ∨ c = 'e' ∨ c = 'E' → c ∈ fr ++ ex → False := by
      intro c hc hm
      have : c ∈ c!"[1,]" := by
        rw [e]; simp at hm ⊢
        rcases hm with h | h <;> simp [h]
      revert this
      rcases hc with rfl | rfl | rfl <;> decide
    rcases hf with ⟨rfl, _⟩ | ⟨rfl, _⟩
    · rcases hx with ⟨rfl, _⟩ | ⟨c, dd, hc, _, ⟨rfl | rfl, _⟩ | ⟨rfl, _⟩⟩
      · exact hn ⟨rfl, rfl⟩
      all_goals exact key c (.inr hc) (by simp)
    · exact key '.' (.inl rfl) (by simp)
  · intro v h
    rw [← loads_iff] at h
    revert h
    have : loads c!"[1,]" = .err .valueError := rfl
    rw [this]; simp

end Verif.Props
