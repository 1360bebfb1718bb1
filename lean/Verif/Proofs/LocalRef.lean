import Verif.Spec.Load
import Verif.Props.Uri
/-! # References with nothing but a fragment -/

namespace Verif
open Verif.UriSpec Verif.Spec Rfc3986

theorem fragment_parts {fr : Str} (h : '\n' ∉ fr) : Parts ('#' :: fr) none none [] none (some fr) := by
  refine ⟨_, _, _, _, ⟨rfl, ?_⟩, ⟨rfl, by simp⟩, ⟨rfl, by simp, by simp⟩, ⟨rfl, by simp⟩, ⟨[], by simp, h, by simp⟩⟩
  rintro ⟨x, r, ⟨a, y, rfl, ha, -⟩, e⟩
  simp only [List.cons_append, List.cons.injEq] at e
  obtain ⟨rfl, -⟩ := e
  exact absurd ha (by decide)

/-- `#` and a pointer is a local reference. -/
theorem local_fragment (ip : Rfc3986.IpRe) {fr : Str} {ptr : List Str} (h : '\n' ∉ fr) (hp : Pointer.parse (pctUpper fr) = .ok ptr) :
    ∃ u b, Uri.parse ip ('#' :: fr) = .ok u ∧ Pointer.parse u.fragment = .ok ptr ∧ Uri.baseUri ip u = .ok b ∧ Uri.truth b = false := by
  refine ⟨_, _, (Props.reference ip (fragment_parts h)).1, hp, Uri.baseUri_eq _ _, ?_⟩
  simp [Uri.truth, Uri.authorityTrue]

end Verif
