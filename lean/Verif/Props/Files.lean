import Verif.Model.Files
import Verif.Spec.Files
import Verif.Props.Resolver
/-! # Property C83: loading files -/

namespace Verif.Props
open Verif Rfc3986 UriSpec Files

theorem rfind_ge (c : Char) (s : Str) : -1 ≤ rfind c s := by
  induction s with
  | nil => simp [rfind]
  | cons x s ih => simp only [rfind]; split <;> (try split) <;> omega

theorem rfind_none {c : Char} {s : Str} (h : c ∉ s) : rfind c s = -1 := by
  induction s with
  | nil => rfl
  | cons x s ih =>
    simp only [List.mem_cons, not_or] at h
    simp only [rfind, ih h.2]
    rw [if_neg (by omega), if_neg fun e => h.1 e.symm]

theorem rfind_last (c : Char) (a b : Str) (h : c ∉ b) : rfind c (a ++ c :: b) = a.length := by
  induction a with
  | nil =>
    simp only [List.nil_append, rfind, rfind_none h]
    simp
  | cons x a ih =>
    simp only [List.cons_append, rfind, ih]
    rw [if_pos (by omega)]; simp

/-- The last place of a character. -/
theorem last_split {c : Char} {s : Str} (h : c ∈ s) : ∃ a b, s = a ++ c :: b ∧ c ∉ b := by
  induction s with
  | nil => cases h
  | cons x s ih =>
    by_cases hs : c ∈ s
    · obtain ⟨a, b, rfl, hb⟩ := ih hs
      exact ⟨x :: a, b, rfl, hb⟩
    · simp only [List.mem_cons, hs, or_false] at h
      subst h
      exact ⟨[], s, rfl, hs⟩

theorem splitext_of (dir stem w : Str) (h1 : '/' ∉ stem) (h2 : dir = [] ∨ ∃ d, dir = d ++ ['/']) (h3 : '.' ∉ w) (h4 : '/' ∉ w) :
    splitext (dir ++ stem ++ '.' :: w) = if stem.any (· != '.') then (dir ++ stem, '.' :: w) else (dir ++ stem ++ '.' :: w, []) := by
  have hd : rfind '.' (dir ++ stem ++ '.' :: w) = (dir ++ stem).length := rfind_last '.' (dir ++ stem) w h3
  have hs : rfind '/' (dir ++ stem ++ '.' :: w) = (dir.length : Int) - 1 := by
    rcases h2 with rfl | ⟨d, rfl⟩
    · rw [rfind_none]
      · simp
      · simp [h1, h4]
    · have := rfind_last '/' d (stem ++ '.' :: w) (by simp [h1, h4])
      simp only [List.append_assoc, List.singleton_append, List.length_append, List.length_cons, List.length_nil] at *
      rw [List.cons_append, this]; omega
  unfold splitext
  simp only [hd, hs]
  rw [if_pos (by rw [List.length_append]; omega)]
  have e1 : ((dir.length : Int) - 1 + 1).toNat = dir.length := by omega
  have e2 : (((dir ++ stem).length : Int) - (dir.length - 1) - 1).toNat = stem.length := by rw [List.length_append]; omega
  rw [e1, e2, List.append_assoc, List.drop_left, List.take_left, ← List.append_assoc, Int.toNat_natCast, List.take_left, List.drop_left]

/-- C83: the extension `os.path.splitext` finds. -/
theorem C83_extension (name ext : Str) (he : IsExt ext) : (splitext name).2 = ext ↔ HasExt ext name := by
  obtain ⟨w, rfl, hw1, hw2⟩ := he
  constructor
  · intro h
    by_cases hdot : '.' ∈ name
    · obtain ⟨a, b, rfl, hb⟩ := last_split hdot
      by_cases hb2 : '/' ∈ b
      · exfalso
        obtain ⟨b1, b2, rfl, hb3⟩ := last_split hb2
        have e1 : rfind '/' (a ++ '.' :: (b1 ++ '/' :: b2)) = (a ++ '.' :: b1).length := by
          have := rfind_last '/' (a ++ '.' :: b1) b2 hb3
          simpa using this
        unfold splitext at h
        simp only [e1, rfind_last '.' a _ hb] at h
        rw [if_neg (by simp; omega)] at h
        simp at h
      · have key : ∀ dir stem, a = dir ++ stem → '/' ∉ stem → (dir = [] ∨ ∃ d, dir = d ++ ['/']) → HasExt ('.' :: w) (a ++ '.' :: b) := by
          intro dir stem ha h1 h2
          rw [ha, splitext_of dir stem b h1 h2 hb hb2] at h
          split at h
          · next hany =>
            simp only [List.cons.injEq, true_and] at h
            subst h
            simp only [List.any_eq_true, bne_iff_ne] at hany
            exact ⟨dir, stem, by rw [ha], h1, h2, hany⟩
          · simp at h
        by_cases hsl : '/' ∈ a
        · obtain ⟨d, r, hr, hr2⟩ := last_split hsl
          exact key (d ++ ['/']) r (by rw [hr]; simp) hr2 (.inr ⟨d, rfl⟩)
        · exact key [] a rfl hsl (.inl rfl)
    · exfalso
      unfold splitext at h
      rw [rfind_none hdot] at h
      have := rfind_ge '/' name
      simp only at h
      rw [if_neg (by omega)] at h
      simp at h
  · rintro ⟨dir, stem, rfl, h1, h2, c, hc, hne⟩
    rw [splitext_of dir stem w h1 h2 hw1 hw2, if_pos]
    simp only [List.any_eq_true, bne_iff_ne]
    exact ⟨c, hc, hne⟩

theorem isExt_supported : IsExt c!".json" ∧ IsExt c!".yaml" ∧ IsExt c!".yml" :=
  ⟨⟨c!"json", rfl, by decide, by decide⟩, ⟨c!"yaml", rfl, by decide, by decide⟩, ⟨c!"yml", rfl, by decide, by decide⟩⟩

variable {V D : Type} (disk : Disk V D)

/-- C83: a file is opened first, and then parsed by its extension; other names than `*.json`, `*.yaml`, `*.yml` raise `ValueError`. -/
theorem C83_file (name : Str) (v : V) :
    (∀ e, disk.openFile name = .err e → loadFile disk name v = .err e) ∧
    (∀ text, disk.openFile name = .ok text →
      (HasExt c!".json" name → loadFile disk name v = disk.json text v) ∧
      (HasExt c!".yaml" name ∨ HasExt c!".yml" name → loadFile disk name v = disk.yaml text v) ∧
      (¬ HasExt c!".json" name → ¬ HasExt c!".yaml" name → ¬ HasExt c!".yml" name → loadFile disk name v = .err .valueError)) := by
  obtain ⟨i1, i2, i3⟩ := isExt_supported
  refine ⟨fun e h => by simp [loadFile, h], fun text h => ?_⟩
  simp only [← C83_extension name _ i1, ← C83_extension name _ i2, ← C83_extension name _ i3, loadFile, h, Res.ok_bind]
  generalize (splitext name).2 = x
  refine ⟨?_, ?_, ?_⟩
  · rintro rfl; rfl
  · rintro (rfl | rfl) <;> rfl
  · intro h1 h2 h3; rw [if_neg h2, if_neg h3, if_neg h1]

example : HasExt c!".json" c!"/a.b/c.json" ∧ ¬ HasExt c!".json" c!"/a/.json" ∧ ¬ HasExt c!".json" c!"a.JSON" ∧
    ¬ HasExt c!".json" c!"a.json/b" := by
  simp only [← C83_extension _ _ isExt_supported.1]
  decide

open Resolver in
/-- C83: whatever was resolved before, a uri of a scheme that was never registered is read from the file at its path if it has no scheme
or the scheme `file`; any other raises `ValueError`. -/
theorem C83_load (h : List Op) (u : Uri) (v : V) (hn : ∀ op ∈ h, ¬ Registers u.scheme op) :
    (loader disk u v (exec h)).1 = if u.scheme = [] ∨ u.scheme = c!"file" then loadFile disk u.path v else .err .valueError := by
  have h1 := C53_current_partial h [] u (by simp [Asked]) hn
  have hr : registered u.scheme h = none := by
    induction h with
    | nil => rfl
    | cons op h ih =>
      have := ih (fun op hop => hn op (by simp [hop])) (C53_current_partial h [] u (by simp [Asked]) (fun op hop => hn op (by simp [hop])))
      cases op with
      | register s r =>
        have hs : ¬ s = u.scheme := fun e => hn (.register s r) (by simp) e
        simp [registered, hs, this]
      | resolve _ => simpa [registered] using this
      | others _ => simpa [registered] using this
  rw [List.append_nil] at h1
  simp only [expected, hr] at h1
  unfold loader
  generalize hres : resolve u (exec h) = r at h1 ⊢
  obtain ⟨r1, r2⟩ := r
  simp only at h1
  subst h1
  split
  · next e => split at e
              · next hc => cases e; rw [if_pos hc]
              · cases e
  · next e => split at e
              · cases e
              · next hc => cases e; rw [if_neg hc]
  · next e => split at e <;> cases e

variable (ip : IpRe)

open Resolver in
/-- C83: what a store whose loader has no resolver for the scheme does with a uri it does not hold: it returns and keeps what the file
holds; a file that does not exist is reported as `JsonLoadError` and nothing is stored. -/
theorem C83_store (h : List Op) (u : Uri) (hu : Made ip u) (v : V) (hn : ∀ op ∈ h, ¬ Registers u.scheme op)
    (hs : u.scheme = [] ∨ u.scheme = c!"file") (st : Store.State D Resolver.State) (hl : st.loader = exec h)
    (ho : dictGet (baseOf u) st.storage = none) :
    (∀ d, loadFile disk u.path v = .ok d →
      (Store.load ip (loader disk) (.uri u) v st).1 = .ok (.doc d) ∧
      (Store.load ip (loader disk) (.uri u) v st).2.storage = dictSet (baseOf u) d st.storage) ∧
    (disk.openFile u.path = .err .fileNotFound →
      (Store.load ip (loader disk) (.uri u) v st).1 = .err .jsonLoadError ∧
      (Store.load ip (loader disk) (.uri u) v st).2.storage = st.storage) := by
  have key := C83_load disk h u v hn
  rw [if_pos hs, ← hl] at key
  simp only [Store.load]
  rcases loadUri_cases ip (loader disk) hu v st with ⟨d, hd, _⟩ | ⟨_, hd⟩
  · rw [ho] at hd; cases hd
  · refine ⟨fun d h1 => ?_, fun h1 => ?_⟩
    · rw [h1] at key
      rcases hd with ⟨d', e1, e2⟩ | ⟨e, e1, e2⟩ | ⟨e1, e2⟩
      · rw [key] at e1; cases e1; rw [e2]; exact ⟨rfl, rfl⟩
      · rw [key] at e1; cases e1
      · rw [key] at e1; cases e1
    · rw [(C83_file disk u.path v).1 _ h1] at key
      rcases hd with ⟨d', e1, e2⟩ | ⟨e, e1, e2⟩ | ⟨e1, e2⟩
      · rw [key] at e1; cases e1
      · rw [key] at e1; cases e1; rw [e2]; exact ⟨rfl, rfl⟩
      · rw [key] at e1; cases e1

theorem scheme_file : SchemeText c!"file" := ⟨'f', c!"ile", rfl, by decide, by decide⟩

/-- A text `file://` with a host and a path. -/
theorem parse_file (h p : Str) (hh : ∀ c ∈ h, regC c = true) (hh' : ∀ c ∈ h, c ∉ c!"\\/?#") (h1 : ∀ c ∈ p, c ≠ '?' ∧ c ≠ '#')
    (h2 : ∀ c, p.head? = some c → c ∈ c!"\\/?#") :
    Uri.parse ip (c!"file://" ++ h ++ p) = .ok ⟨c!"file", ⟨[], h, []⟩, normPath p, [], []⟩ := by
  have hp : Parts (c!"file://" ++ h ++ p) (some c!"file") (some h) p none none :=
    ⟨c!"//" ++ h ++ p, p, [], [], ⟨scheme_file, by simp⟩, ⟨by simp, hh', h2⟩, ⟨by simp, h1, by simp⟩, ⟨rfl, by simp⟩, by simp [FragmentOf]⟩
  rw [Uri.parse_parts ip hp]
  simp only [Option.getD_some]
  rw [authority_name ip hh]
  rfl

/-- A disk with a single file, which holds JSON. -/
def oneFile (name : Str) (d : D) : Disk V D where
  openFile n := if n = name then .ok [] else .err .fileNotFound
  json _ _ := .ok d
  yaml _ _ := .err .valueError

example (h : Str) (hn : HasExt c!".json" h) (d : D) (v : V) : loadFile (oneFile (V := V) h d) h v = .ok d := by
  rw [((C83_file (oneFile (V := V) h d) h v).2 [] (by simp [oneFile])).1 hn]
  rfl

/-- Names are not decoded: the uri of the file `/a b.json` does not open it. -/
theorem C83_decoded_violated (d : D) (v : V) : ∃ u, Uri.parse ip c!"file:///a%20b.json" = .ok u ∧
    (loader (oneFile c!"/a b.json" d) u v (Resolver.exec [])).1 = .err .fileNotFound ∧
    (loader (oneFile c!"/a%20b.json" d) u v (Resolver.exec [])).1 = .ok d := by
  refine ⟨_, parse_file ip [] c!"/a%20b.json" (by simp) (by simp) (by decide) (by decide), ?_, ?_⟩
  all_goals
    rw [C83_load _ [] _ v (by simp)]
    rfl

/-- The host is not looked at: the file of another machine is read from this one. -/
theorem C83_host_violated (d : D) (v : V) : ∃ u, Uri.parse ip c!"file://b/a.json" = .ok u ∧ u.authority.host = c!"b" ∧
    (loader (oneFile c!"/a.json" d) u v (Resolver.exec [])).1 = .ok d := by
  refine ⟨_, parse_file ip c!"b" c!"/a.json" (by decide) (by decide) (by decide) (by decide), rfl, ?_⟩
  rw [C83_load _ [] _ v (by simp)]
  rfl

/-- A document without its own extension cannot be loaded, whatever it holds. -/
example (d : D) (v : V) : (loader (oneFile c!"/a" d) ⟨[], ⟨[], [], []⟩, c!"/a", [], []⟩ v (Resolver.exec [])).1 = .err .valueError := rfl

end Verif.Props
