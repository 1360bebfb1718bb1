import Verif.Proofs.RetryLoad
import Verif.Props.Web
/-!
# C64, where it holds: documents whose references stand in the first layer

A load that failed because files could not be read can be tried again.
-/

namespace Verif.Props
open Verif Verif.Spec Verif.Obj

section
variable (E : Env) (voc : List Kw) (hvoc : (voc.filter fun k => !k.isAssertion) = [.ref, .anchor, .id]) (lib : Str → List (Str × Val) → Prop)
  (hlib : ∀ k kvs, lib k kvs → WebDoc E.ip E.file lib kvs)
include hvoc hlib

/-- C64 for the documents of C93 whose references stand in the first layer: after any number of attempts to load the schema while some of the files could not be
read, the next attempt returns or raises, whichever files cannot be read then; and once they all can, it returns, and the schema is what it would have been without the
attempts that failed: the objects show the data it was created from, its references leading to the documents the store has for their identifiers.
Missing: references further down (`C64_violated`), `$ref` in the root, and loads that fail for other reasons. -/
theorem C64_partial {made : List (Nat × List (Str × Val))} {s s1 : St} (h : Reached E voc lib made s) {d : Nat} {kvs : List (Str × Val)} (hd : (d, kvs) ∈ made)
    (hsh : Shallow (wrapDict kvs)) (ha : Attempts E d s s1) :
    (∀ E0, Lacks E E0 → ∃ x s2, (∃ f0, ∀ f, f0 ≤ f → (ops E0 f).load d s1 = (x, s2)) ∧ (x = .ok () ∨ ∃ e, x = .err e)) ∧
    ∃ s2, (∃ f0, ∀ f, f0 ≤ f → (ops E f).load d s1 = (.ok (), s2)) ∧ ∃ x : Schema, s2.docs[d]? = some x ∧ x.ready = true ∧
      Shows s2.mem (docIn E.ip (Spec.refDoc E.ip s2.storage d) (wrap (.dict kvs))).root x.value ∧
      ShowsD s2.mem (docIn E.ip (Spec.refDoc E.ip s2.storage d) (wrap (.dict kvs))).anchors x.anchors ∧
      LinkedRoot E.ip (Known E.ip s2.storage) (wrapDict kvs) := by
  obtain ⟨data, A, hh⟩ := reached_holds hvoc hlib h
  clear h
  have hold : ∃ data' A', WebHolds E voc lib made data' A' s1 := by
    induction ha generalizing data A with
    | nil s => exact ⟨data, A, hh⟩
    | cons lacks call _ ih =>
      obtain ⟨y, data', A', s', r1, -, r2⟩ := hh.attempt hlib hd hsh lacks
      obtain ⟨-, rfl⟩ := Runs.det call r1
      exact ih data' A' r2
  obtain ⟨data', A', hh'⟩ := hold
  refine ⟨fun E0 hE => ?_, ?_⟩
  · obtain ⟨x, _, _, s2, r1, r2, -⟩ := hh'.attempt hlib hd hsh hE
    exact ⟨x, s2, r1, r2⟩
  · obtain ⟨hk, hdoc⟩ := hh'.created d kvs hd
    obtain ⟨data2, A2, s2, r1, r2, ⟨x, hx, hr⟩, -⟩ := hh'.load hlib (d := d) (by rw [← hh'.web.length]; exact (List.getElem?_eq_some_iff.1 hk).1)
    refine ⟨s2, r1, x, hx, hr, ?_⟩
    obtain ⟨-, ⟨-, h2, h3, h4, h5⟩ | ⟨h0, -⟩⟩ := r2.web.doc d x kvs hx (r2.created d kvs hd).1 (by simp)
    · exact ⟨h4.shows, h5.shows, h3, h2, hdoc.root.name⟩
    · rw [hr] at h0; cases h0

end

/-- `{"p": {"$ref": "http://x/a#/p"}, "q": {"$ref": "http://x/b#/m"}}` -/
def againKvs : List (Str × Val) := [(c!"p", .dict [(c!"$ref", .str c!"http://x/a#/p")]), (c!"q", .dict [(c!"$ref", .str c!"http://x/b#/m")])]

/-- The library of C93 without its second document. -/
def againFile (ip : Rfc3986.IpRe) (u : Uri) : Res Val := match Store.baseText ip u with
  | .ok k => if k = c!"http://x/b" then .err .fileNotFound else webFile u
  | _ => webFile u

theorem again_doc (ip : Rfc3986.IpRe) : WebDoc ip webFile webLib againKvs := by
  refine ⟨⟨⟨⟨⟨by decide, by decide⟩, ⟨fun _ => ⟨by decide, _, rfl, web_to_a ip⟩, fun h => absurd h (by decide)⟩, trivial, trivial⟩,
    ⟨⟨by decide, by decide⟩, ⟨fun _ => ⟨by decide, _, rfl, web_to_b ip⟩, fun h => absurd h (by decide)⟩, trivial, trivial⟩, trivial⟩,
    ⟨fun h => absurd h (by decide), fun h => absurd h (by decide)⟩, .inl ⟨by decide, by decide⟩⟩, fun k hk => ?_⟩
  have : nameOf ip (wrapDict againKvs) = none := by cbv
  rw [this] at hk; cases hk

theorem again_shallow : Shallow (wrapDict againKvs) := by
  refine ⟨by decide, fun k n hn => .inr ?_⟩
  simp only [againKvs, wrapDict, wrap, List.mem_cons, List.not_mem_nil, or_false, Prod.mk.injEq] at hn
  rcases hn with ⟨-, rfl⟩ | ⟨-, rfl⟩ <;> refine ⟨_, rfl, by decide, fun k' n' h => ?_⟩ <;>
    simp only [List.mem_cons, List.not_mem_nil, or_false, Prod.mk.injEq] at h <;> obtain ⟨-, rfl⟩ := h <;> trivial

theorem again_lacks (ip : Rfc3986.IpRe) (w : World) : Lacks ⟨ip, w, webFile⟩ ⟨ip, w, againFile ip⟩ := by
  refine ⟨rfl, fun k => k = c!"http://x/b", fun u k hk => ⟨fun h => ⟨.fileNotFound, ?_⟩, fun h => ?_⟩⟩
  · change againFile ip u = _
    change Store.baseText ip u = _ at hk
    simp only [againFile, hk, if_pos h]
  · change againFile ip u = _
    change Store.baseText ip u = _ at hk
    simp only [againFile, hk, if_neg h]

/-- With the second file missing, loading the document finds the first, and raises `JsonLoadError` for the second; when the file is there, loading the same schema
returns. -/
theorem again_loads (ip : Rfc3986.IpRe) (w : World) : ∃ s s1 s2, newDocument (.dict againKvs) draft2020Vocabulary St.empty = (.ok 0, s) ∧
    (∃ f0, ∀ f, f0 ≤ f → (ops ⟨ip, w, againFile ip⟩ f).load 0 s = (.err .jsonLoadError, s1)) ∧ s1.docs.length = 2 ∧
    ∃ f0, ∀ f, f0 ≤ f → (ops ⟨ip, w, webFile⟩ f).load 0 s1 = (.ok (), s2) := by
  have hvoc : (draft2020Vocabulary.filter fun k => !k.isAssertion) = [.ref, .anchor, .id] := by decide
  let s := (newDocument (.dict againKvs) draft2020Vocabulary St.empty).2
  have h0 : newDocument (.dict againKvs) draft2020Vocabulary St.empty = (.ok 0, s) := rfl
  have e1 : ((ops ⟨ip, w, againFile ip⟩ 12).load 0 s).1 = .err .jsonLoadError := by cbv
  have e2 : ((ops ⟨ip, w, againFile ip⟩ 12).load 0 s).2.docs.length = 2 := by cbv
  generalize hr : (ops ⟨ip, w, againFile ip⟩ 12).load 0 s = r at e1 e2
  obtain ⟨x, s1⟩ := r
  simp only at e1 e2
  subst e1
  have h1 : ∃ f0, ∀ f, f0 ≤ f → (ops ⟨ip, w, againFile ip⟩ f).load 0 s = (.err .jsonLoadError, s1) := ⟨12, fun f hf => by
    rw [← hr]; exact (ops_mono _ hf).load 0 s (by rw [hr]; simp)⟩
  clear_value s
  obtain ⟨-, s2, h2, -⟩ := C64_partial ⟨ip, w, webFile⟩ draft2020Vocabulary hvoc webLib (web_library ip) (.create .empty (again_doc ip) h0) (d := 0) (kvs := againKvs) (by simp)
    again_shallow (.cons (again_lacks ip w) h1 (.nil _))
  exact ⟨s, _, s2, h0, h1, e2, h2⟩

end Verif.Props
