import Verif.Proofs.Repr
import Verif.Props.Uri
/-!
# C78: the identifier of a schema that has none

`printable` (`str.isprintable` beyond ASCII) and the hash function are arbitrary; of the hash function only the shape of what it prints is
used, and, where two documents are told apart, that it does not give their two texts the same value.
-/

namespace Verif.Props
open Verif Verif.Repr Verif.Spec Rfc3986 UriSpec

variable (ip : IpRe) (printable : Char → Bool) (sha : Str → Str)

theorem regC_hex {t : Str} (h : HexDigest t) : ∀ c ∈ t, regC c = true := by
  have : ∀ c ∈ c!"0123456789abcdef", regC c = true := by decide
  exact fun c hc => this c (h.2 c hc)

theorem parts_local {t : Str} (h : HexDigest t) : Parts (c!"local://" ++ t ++ c!"/") (some c!"local") (some t) c!"/" none none := by
  have hs : SchemeText c!"local" := ⟨'l', c!"ocal", rfl, by decide, by decide⟩
  have : ∀ c ∈ c!"0123456789abcdef", c ∉ c!"\\/?#" := by decide
  exact ⟨c!"//" ++ t ++ c!"/", c!"/", [], [], ⟨hs, by simp⟩, ⟨by simp, fun c hc => this c (h.2 c hc), by decide⟩,
    ⟨by simp, by decide, by simp⟩, ⟨rfl, by simp⟩, by simp [FragmentOf]⟩

theorem parse_local {t : Str} (h : HexDigest t) :
    Uri.parse ip (c!"local://" ++ t ++ c!"/") = .ok ⟨c!"local", ⟨[], t, []⟩, c!"/", [], []⟩ := by
  rw [Uri.parse_parts ip (parts_local h)]
  have : Uri.parseAuthority ip t = .ok ⟨[], t, []⟩ := authority_name ip (regC_hex h)
  simp only [Option.getD_some, this, Res.ok_bind]
  rfl

theorem readId_new (hsha : ∀ t, HexDigest (sha t)) (d : RawDoc) : readId ip printable sha (newSchema d) =
    (.ok ⟨c!"local", ⟨[], sha (reprText printable d), []⟩, c!"/", [], []⟩,
      ⟨d, some ⟨c!"local", ⟨[], sha (reprText printable d), []⟩, c!"/", [], []⟩⟩) := by
  simp only [readId, newSchema, parse_local ip (hsha _)]

/-- C78: the identifier made for a schema is the absolute URI `local://<digest>/`, and it is made. -/
theorem C78_uri (hsha : ∀ t, HexDigest (sha t)) (d : RawDoc) : ∃ u s, readId ip printable sha (newSchema d) = (.ok u, s) ∧
    u.text = c!"local://" ++ sha (reprText printable d) ++ c!"/" ∧ Uri.isAbsolute ip u = .ok true := by
  refine ⟨_, _, readId_new ip printable sha hsha d, ?_, ?_⟩
  · have hl : (sha (reprText printable d)) ≠ [] := fun e => by have := (hsha (reprText printable d)).1; rw [e] at this; simp at this
    simp [Uri.text, Uri.authorityTrue, Uri.authorityText, hl]
  · refine isAbsolute_parts ip (parts_local (hsha _)) ?_ (parse_local ip (hsha _))
    intro x hx
    have : strSplit '/' c!"/" = [[], []] := by decide
    rw [this] at hx
    simp at hx
    subst hx
    exact .nil

/-- C78, different data: if no text among the values is mistakable for something else, and the hash function tells the two texts apart, then
different data have different identifiers.  Missing: mistakable texts, see `C78_apart_violated`. -/
theorem C78_apart_partial (hsha : ∀ t, HexDigest (sha t)) {a b : RawDoc} (ha : Clear a) (hb : Clear b)
    (hab : sha (reprText printable a) = sha (reprText printable b) → reprText printable a = reprText printable b) {u : Uri} {s t : Schema}
    (h1 : readId ip printable sha (newSchema a) = (.ok u, s)) (h2 : readId ip printable sha (newSchema b) = (.ok u, t)) : a = b := by
  rw [readId_new ip printable sha hsha] at h1 h2
  simp only [Prod.mk.injEq, Res.ok.injEq] at h1 h2
  have := h1.1.trans h2.1.symm
  simp only [Uri.mk.injEq, Authority.mk.injEq] at this
  exact repr_inj printable ha hb (hab this.2.1.2.1)

/-- The case of a schema: `{"type": "object", "maxProperties": 3, "required": ["a", "None'"], "x": {"b": null, "c": true}}`. -/
example : Clear (.dict [(c!"type", .str c!"object"), (c!"maxProperties", .num c!"3"), (c!"required", .list [.str c!"a", .str c!"None'"]),
    (c!"x", .dict [(c!"b", .null), (c!"c", .bool true)])]) := by
  have un : ∀ {s : Str}, ')' ∉ s → s ≠ c!"None" → s ≠ c!"JsonBool(True" → s ≠ c!"JsonBool(False" → (∀ c ∈ s.head?, c ∉ c!"[]{") →
      (∃ c ∈ s, c ∉ c!"0123456789.+-E") → s ∉ [c!"NaN", c!"Infinity", c!"-Infinity"] → Unmistakable s := by
    intro s h1 h2 h3 h4 h5 ⟨c, hc, h6⟩ h7
    exact ⟨h1, fun h => h.elim (fun h => h6 (h.2 c hc)) h7, h2, h3, h4, h5⟩
  refine .dict fun kv hm => ?_
  simp only [List.mem_cons, List.not_mem_nil, or_false] at hm
  rcases hm with rfl | rfl | rfl | rfl
  · exact .str (un (by decide) (by decide) (by decide) (by decide) (by decide) (by decide) (by decide))
  · exact .num (.inl ⟨by decide, by decide⟩)
  · refine .list fun x hm => ?_
    simp only [List.mem_cons, List.not_mem_nil, or_false] at hm
    rcases hm with rfl | rfl <;>
      exact .str (un (by decide) (by decide) (by decide) (by decide) (by decide) (by decide) (by decide))
  · refine .dict fun kv hm => ?_
    simp only [List.mem_cons, List.not_mem_nil, or_false] at hm
    rcases hm with rfl | rfl
    · exact .null
    · exact .bool true

theorem readId_text {a b : RawDoc} (h : reprText printable a = reprText printable b) :
    (readId ip printable sha (newSchema a)).1 = (readId ip printable sha (newSchema b)).1 := by
  simp only [readId, newSchema, h]
  cases Uri.parse ip (c!"local://" ++ sha (reprText printable b) ++ c!"/") <;> rfl

/-- C78 fails: whatever the hash function, the number 1 and the text "1", `null` and "None", `[]` and "[]", two texts and one text give
schemas of the same identifier. -/
theorem C78_apart_violated : ∀ p ∈ [
      (RawDoc.num c!"1", RawDoc.str c!"1"), (.null, .str c!"None"), (.bool true, .str c!"JsonBool(True"), (.list [], .str c!"[]"),
      (.list [.str c!"b", .str c!"c"], .list [.str c!"b), c"])],
    RawDoc.dict [(c!"a", p.1)] ≠ .dict [(c!"a", p.2)] ∧
    (readId ip printable sha (newSchema (.dict [(c!"a", p.1)]))).1 = (readId ip printable sha (newSchema (.dict [(c!"a", p.2)]))).1 := by
  intro p hp
  simp only [List.mem_cons, List.not_mem_nil, or_false] at hp
  rcases hp with rfl | rfl | rfl | rfl | rfl <;> refine ⟨by simp, readId_text ip printable sha ?_⟩ <;> simp [reprText, members, reprs]

/-- C78 fails the other way round: two objects with the same members in another order get different identifiers, unless the hash function
gives their texts the same value. -/
theorem C78_order_violated (hsha : ∀ t, HexDigest (sha t)) : ∃ kvs lvs : List (Str × RawDoc), (∀ kv, kv ∈ kvs ↔ kv ∈ lvs) ∧
    (kvs.map Prod.fst).Nodup ∧ reprText printable (.dict kvs) ≠ reprText printable (.dict lvs) ∧
    (sha (reprText printable (.dict kvs)) ≠ sha (reprText printable (.dict lvs)) → (readId ip printable sha (newSchema (.dict kvs))).1 ≠ (readId ip printable sha (newSchema (.dict lvs))).1) := by
  have hc : ∀ k l : Str, Clear (.dict [(k, .null), (l, .null)]) := by
    intro k l
    refine .dict fun kv hm => ?_
    simp only [List.mem_cons, List.not_mem_nil, or_false] at hm
    rcases hm with rfl | rfl <;> exact .null
  refine ⟨[(c!"a", .null), (c!"b", .null)], [(c!"b", .null), (c!"a", .null)], by simp [or_comm], by decide, ?_, ?_⟩
  · intro h
    have := repr_inj printable (hc _ _) (hc _ _) h
    simp at this
  · intro hab h
    rw [readId_new ip printable sha hsha, readId_new ip printable sha hsha] at h
    simp only [Res.ok.injEq, Uri.mk.injEq, Authority.mk.injEq] at h
    exact hab h.2.1.2.1

theorem run_kept {u : Uri} (hu : u.truth = true) : ∀ (acts : List Act) (s : Schema), s.id = some u → (∀ v, Act.set v ∉ acts) →
    ∀ a ∈ (runActs ip printable sha acts s).1, a = .ok u
  | [], _, _, _ => by simp [runActs]
  | .read :: r, s, hs, hn => by
    have e : readId ip printable sha s = (.ok u, s) := by simp [readId, hs, hu]
    simp only [runActs, e, List.mem_cons]
    rintro a (rfl | h)
    · rfl
    · exact run_kept hu r s hs (fun v hv => hn v (by simp [hv])) a h
  | .set v :: r, s, hs, hn => absurd (by simp) (hn v)
  | .edit d :: r, s, hs, hn => by
    simp only [runActs]
    exact run_kept hu r _ hs (fun v hv => hn v (by simp [hv]))

/-- C78: once read, the identifier stays the same, whatever is changed, until it is set. -/
theorem C78_kept (hsha : ∀ t, HexDigest (sha t)) (d : RawDoc) (acts : List Act) (hn : ∀ v, Act.set v ∉ acts) {u : Uri} {s : Schema}
    (h : readId ip printable sha (newSchema d) = (.ok u, s)) : ∀ a ∈ (runActs ip printable sha acts s).1, a = .ok u := by
  rw [readId_new ip printable sha hsha] at h
  simp only [Prod.mk.injEq, Res.ok.injEq] at h
  obtain ⟨rfl, rfl⟩ := h
  exact run_kept ip printable sha (by simp [Uri.truth]) acts _ rfl hn

/-- C78: an identifier that is set is the one that is read, if it is not the empty one. -/
theorem C78_set {u : Uri} (hu : u.truth = true) (s : Schema) : (readId ip printable sha (setId u s)).1 = .ok u := by
  simp [readId, setId, hu]

/-- C78 fails when the data change: after a read the identifier no longer follows, so that two schemas with the same data have different
identifiers and two with different data the same. -/
theorem C78_edited_violated (hsha : ∀ t, HexDigest (sha t)) : ∃ d e : RawDoc, d ≠ e ∧
    (runActs ip printable sha [.read, .edit e, .read] (newSchema d)).1 = [(readId ip printable sha (newSchema d)).1,
      (readId ip printable sha (newSchema d)).1] := by
  refine ⟨.dict [], .list [], by simp, ?_⟩
  simp only [runActs, readId_new ip printable sha hsha]
  simp [readId, Uri.truth]

/-- A function with digests of the right shape that tells two given texts apart. -/
example {x y : Str} (h : x ≠ y) : ∃ sha : Str → Str, (∀ t, HexDigest (sha t)) ∧ sha x ≠ sha y := by
  have hd : ∀ c ∈ c!"01", HexDigest (List.replicate 64 c) := by
    refine fun c hc => ⟨by simp, fun d hm => ?_⟩
    rw [(List.mem_replicate.1 hm).2]
    exact (by decide : ∀ c ∈ c!"01", c ∈ c!"0123456789abcdef") c hc
  refine ⟨fun t => if t = x then List.replicate 64 '0' else List.replicate 64 '1', fun t => ?_, ?_⟩
  · dsimp only
    split <;> exact hd _ (by decide)
  · simp [Ne.symm h]

theorem hex_printed : ∀ (w n : Nat), ∀ c ∈ hex w n, 32 ≤ c.toNat ∧ c.toNat < 127
  | 0, _, c, h => by simp [Repr.hex] at h
  | w + 1, n, c, h => by
    rw [Repr.hex, List.mem_append, List.mem_singleton] at h
    rcases h with h | rfl
    · exact hex_printed w _ c h
    · have : n % 16 < 16 := Nat.mod_lt _ (by decide)
      exact (show ∀ k < 16, 32 ≤ (Nat.digitChar k).toNat ∧ (Nat.digitChar k).toNat < 127 by decide) _ this

/-- C78: the names of members stand in the text in quotes: in single ones, or in double ones where this saves escaping; and only printable characters are left, so
that the text is one line. -/
theorem C78_quote (s : Str) : (∀ c ∈ quote printable s, (32 ≤ c.toNat ∧ c.toNat < 127) ∨ (127 < c.toNat ∧ printable c = true)) ∧
    ((∃ t, quote printable s = '\'' :: (t ++ c!"'") ∧ ('\'' ∈ s → '"' ∈ s)) ∨ ∃ t, quote printable s = '"' :: (t ++ c!"\"") ∧ '\'' ∈ s ∧ '"' ∉ s) := by
  refine ⟨fun c hc => ?_, ?_⟩
  · have hq : 32 ≤ (quoteOf s).toNat ∧ (quoteOf s).toNat < 127 := by
      unfold quoteOf; split <;> decide
    have front : ∀ c ∈ c!"\\xuU", 32 ≤ c.toNat ∧ c.toNat < 127 := by decide
    simp only [quote, List.mem_cons, List.mem_append, List.mem_flatMap, List.not_mem_nil, or_false] at hc
    rcases hc with rfl | ⟨a, ha, hc⟩ | rfl
    · exact .inl hq
    · unfold esc at hc
      split at hc
      · rename_i h
        simp only [List.mem_cons, List.not_mem_nil, or_false] at hc
        rcases hc with rfl | rfl
        · exact .inl (by decide)
        · rcases h with rfl | rfl
          · exact .inl hq
          · exact .inl (by decide)
      split at hc
      · exact .inl (by revert c; decide)
      split at hc
      · exact .inl (by revert c; decide)
      split at hc
      · exact .inl (by revert c; decide)
      split at hc
      · rcases List.mem_append.1 hc with hc | hc
        · exact .inl (front c (by simp only [List.mem_cons, List.not_mem_nil, or_false] at hc ⊢; rcases hc with hc | hc <;> simp [hc]))
        · exact .inl (hex_printed _ _ c hc)
      split at hc
      · rename_i h1 h2
        cases List.mem_singleton.1 hc
        rcases h2 with h2 | h2
        · exact .inl (by omega)
        · by_cases h : c.toNat < 127
          · exact .inl (by omega)
          · exact .inr ⟨by omega, h2⟩
      split at hc
      · rcases List.mem_append.1 hc with hc | hc
        · exact .inl (front c (by simp only [List.mem_cons, List.not_mem_nil, or_false] at hc ⊢; rcases hc with hc | hc <;> simp [hc]))
        · exact .inl (hex_printed _ _ c hc)
      split at hc
      · rcases List.mem_append.1 hc with hc | hc
        · exact .inl (front c (by simp only [List.mem_cons, List.not_mem_nil, or_false] at hc ⊢; rcases hc with hc | hc <;> simp [hc]))
        · exact .inl (hex_printed _ _ c hc)
      · rcases List.mem_append.1 hc with hc | hc
        · exact .inl (front c (by simp only [List.mem_cons, List.not_mem_nil, or_false] at hc ⊢; rcases hc with hc | hc <;> simp [hc]))
        · exact .inl (hex_printed _ _ c hc)
    · exact .inl hq
  · unfold quote
    by_cases h : '\'' ∈ s ∧ '"' ∉ s
    · have : quoteOf s = '"' := by simp [quoteOf, h.1, h.2]
      rw [this]
      exact .inr ⟨_, rfl, h⟩
    · have : quoteOf s = '\'' := by
        unfold quoteOf
        rw [if_neg]
        simpa using h
      rw [this]
      exact .inl ⟨_, rfl, fun h1 => by simpa [h1] using h⟩

example : quote printable c!"it's\n" = c!"\"it's\\n\"" := by rfl

end Verif.Props
