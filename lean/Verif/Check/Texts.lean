import Verif.Model.Uri
import Verif.Model.Pointer
import Verif.Model.Compare
import Verif.Model.Arith
import Verif.Check.Suite
/-!
# The project's own tests of texts and values, run on the model

From tests/test_uri.py, tests/test_iso_datetime.py, tests/test_json_pointer.py and tests/types.  These are tests of the model, not proofs.
-/

namespace Verif.Check
open Verif Verif.Iso

/-- A pattern for IP literals (none of the tests has one): `::` -/
def ip : Rfc3986.IpRe where
  re := .cls fun c => c == ':'
  isBare := by decide
  inside T := T = c!":"
  lang s t := by
    constructor
    · intro h; cases h; rename_i c h; simp at h; subst h; exact ⟨[':'], rfl, rfl⟩
    · rintro ⟨T, rfl, rfl⟩; exact .cls (by decide)
  chars T h c hc := by subst h; simp at hc; subst hc; decide

-- tests/test_uri.py 22-27 (test_can_get_scheme)
#guard (do let u ← Uri.parse ip c!"file://path/to/file.json#fragment/part"; (fun u => .ok (u.scheme == c!"file") : Uri → Res Bool) u) == .ok true
#guard (do let u ← Uri.parse ip c!"https://path/to/file.json#fragment/part"; (fun u => .ok (u.scheme == c!"https") : Uri → Res Bool) u) == .ok true
#guard (do let u ← Uri.parse ip c!"https://path/to/file.json?q=1#fragment/part"; (fun u => .ok (u.scheme == c!"https") : Uri → Res Bool) u) == .ok true
#guard (do let u ← Uri.parse ip c!"/path/to/file.json#fragment/part"; (fun u => .ok (u.scheme == c!"") : Uri → Res Bool) u) == .ok true
#guard (do let u ← Uri.parse ip c!"path/to/file.json"; (fun u => .ok (u.scheme == c!"") : Uri → Res Bool) u) == .ok true
#guard (do let u ← Uri.parse ip c!"./to/file.json"; (fun u => .ok (u.scheme == c!"") : Uri → Res Bool) u) == .ok true
#guard (do let u ← Uri.parse ip c!"#fragment/part"; (fun u => .ok (u.scheme == c!"") : Uri → Res Bool) u) == .ok true
-- tests/test_uri.py 42-47 (test_can_get_fragment)
#guard (do let u ← Uri.parse ip c!"file://path/to/file.json#fragment/part"; (fun u => .ok (u.fragment == c!"fragment/part") : Uri → Res Bool) u) == .ok true
#guard (do let u ← Uri.parse ip c!"https://path/to/file.json#fragment/part"; (fun u => .ok (u.fragment == c!"fragment/part") : Uri → Res Bool) u) == .ok true
#guard (do let u ← Uri.parse ip c!"https://path/to/file.json?q=1#fragment/part"; (fun u => .ok (u.fragment == c!"fragment/part") : Uri → Res Bool) u) == .ok true
#guard (do let u ← Uri.parse ip c!"/path/to/file.json#fragment/part"; (fun u => .ok (u.fragment == c!"fragment/part") : Uri → Res Bool) u) == .ok true
#guard (do let u ← Uri.parse ip c!"path/to/file.json"; (fun u => .ok (u.fragment == c!"") : Uri → Res Bool) u) == .ok true
#guard (do let u ← Uri.parse ip c!"./to/file.json"; (fun u => .ok (u.fragment == c!"") : Uri → Res Bool) u) == .ok true
#guard (do let u ← Uri.parse ip c!"#fragment/part"; (fun u => .ok (u.fragment == c!"fragment/part") : Uri → Res Bool) u) == .ok true
-- tests/test_uri.py 62-67 (test_can_get_path)
#guard (do let u ← Uri.parse ip c!"http://domain.com/to/file.json#fragment/part"; (fun u => .ok (u.path == c!"/to/file.json") : Uri → Res Bool) u) == .ok true
#guard (do let u ← Uri.parse ip c!"https://path/to/file.json#fragment/part"; (fun u => .ok (u.path == c!"/to/file.json") : Uri → Res Bool) u) == .ok true
#guard (do let u ← Uri.parse ip c!"https://path/to/file.json?q=1#fragment/part"; (fun u => .ok (u.path == c!"/to/file.json") : Uri → Res Bool) u) == .ok true
#guard (do let u ← Uri.parse ip c!"/path/to/file.json#fragment/part"; (fun u => .ok (u.path == c!"/path/to/file.json") : Uri → Res Bool) u) == .ok true
#guard (do let u ← Uri.parse ip c!"path/to/file.json"; (fun u => .ok (u.path == c!"path/to/file.json") : Uri → Res Bool) u) == .ok true
#guard (do let u ← Uri.parse ip c!"./to/file.json"; (fun u => .ok (u.path == c!"./to/file.json") : Uri → Res Bool) u) == .ok true
#guard (do let u ← Uri.parse ip c!"#fragment/part"; (fun u => .ok (u.path == c!"") : Uri → Res Bool) u) == .ok true
-- tests/test_uri.py 82-87 (test_can_get_host)
#guard (do let u ← Uri.parse ip c!"http://test.com/to/file.json#fragment/part"; (fun u => .ok (u.authority.host == c!"test.com") : Uri → Res Bool) u) == .ok true
#guard (do let u ← Uri.parse ip c!"https://path/to/file.json#fragment/part"; (fun u => .ok (u.authority.host == c!"path") : Uri → Res Bool) u) == .ok true
#guard (do let u ← Uri.parse ip c!"https://path/to/file.json?q=1#fragment/part"; (fun u => .ok (u.authority.host == c!"path") : Uri → Res Bool) u) == .ok true
#guard (do let u ← Uri.parse ip c!"/path/to/file.json#fragment/part"; (fun u => .ok (u.authority.host == c!"") : Uri → Res Bool) u) == .ok true
#guard (do let u ← Uri.parse ip c!"path/to/file.json"; (fun u => .ok (u.authority.host == c!"") : Uri → Res Bool) u) == .ok true
#guard (do let u ← Uri.parse ip c!"./to/file.json"; (fun u => .ok (u.authority.host == c!"") : Uri → Res Bool) u) == .ok true
#guard (do let u ← Uri.parse ip c!"#fragment/part"; (fun u => .ok (u.authority.host == c!"") : Uri → Res Bool) u) == .ok true
-- tests/test_uri.py 105-110 (test_is_absolute)
#guard (do let u ← Uri.parse ip c!"file://path/to/file.json#fragment/part"; (fun u => do .ok ((← Uri.isAbsolute ip u) == true) : Uri → Res Bool) u) == .ok true
#guard (do let u ← Uri.parse ip c!"https://path/to/file.json#fragment/part"; (fun u => do .ok ((← Uri.isAbsolute ip u) == true) : Uri → Res Bool) u) == .ok true
#guard (do let u ← Uri.parse ip c!"https://path/to/file.json?q=1#fragment/part"; (fun u => do .ok ((← Uri.isAbsolute ip u) == true) : Uri → Res Bool) u) == .ok true
#guard (do let u ← Uri.parse ip c!"https://path/to/file.json"; (fun u => do .ok ((← Uri.isAbsolute ip u) == true) : Uri → Res Bool) u) == .ok true
#guard (do let u ← Uri.parse ip c!"https://path/to/file.json?q=1"; (fun u => do .ok ((← Uri.isAbsolute ip u) == true) : Uri → Res Bool) u) == .ok true
#guard (do let u ← Uri.parse ip c!"#fragment/part"; (fun u => do .ok ((← Uri.isAbsolute ip u) == false) : Uri → Res Bool) u) == .ok true
#guard (do let u ← Uri.parse ip c!"path/to/file.json#fragment/part"; (fun u => do .ok ((← Uri.isAbsolute ip u) == false) : Uri → Res Bool) u) == .ok true
#guard (do let u ← Uri.parse ip c!"/path/to/file.json?q=1#fragment/part"; (fun u => do .ok ((← Uri.isAbsolute ip u) == false) : Uri → Res Bool) u) == .ok true
#guard (do let u ← Uri.parse ip c!"../path/to/file.json"; (fun u => do .ok ((← Uri.isAbsolute ip u) == false) : Uri → Res Bool) u) == .ok true
#guard (do let u ← Uri.parse ip c!"./path/to/file.json?q=1"; (fun u => do .ok ((← Uri.isAbsolute ip u) == false) : Uri → Res Bool) u) == .ok true
-- tests/test_uri.py 153-163 (test_can_resolve_relative_uris)
#guard (do let b ← Uri.parse ip c!"http://test.com/path/to/file.json"; let o ← Uri.parse ip c!"../some/file.json"; .ok (Uri.text (← Uri.resolve ip b o))) == .ok c!"http://test.com/path/some/file.json"
#guard (do let b ← Uri.parse ip c!"http://test.com/to/file.json#fragment/part"; let o ← Uri.parse ip c!"http://test.com/path/to/file.json#fragment/part"; .ok (Uri.text (← Uri.resolve ip b o))) == .ok c!"http://test.com/path/to/file.json#fragment/part"
#guard (do let b ← Uri.parse ip c!"http://test.com/to/file.json#fragment/part"; let o ← Uri.parse ip c!"../other.json"; .ok (Uri.text (← Uri.resolve ip b o))) == .ok c!"http://test.com/other.json"
#guard (do let b ← Uri.parse ip c!"http://test.com/to/file.json#fragment/part"; let o ← Uri.parse ip c!"/path/to/file.json#fragment/part2"; .ok (Uri.text (← Uri.resolve ip b o))) == .ok c!"http://test.com/path/to/file.json#fragment/part2"
#guard (do let b ← Uri.parse ip c!"http://test.com/to/file.json#fragment/part"; let o ← Uri.parse ip c!"#fragment-2"; .ok (Uri.text (← Uri.resolve ip b o))) == .ok c!"http://test.com/to/file.json#fragment-2"
#guard (do let b ← Uri.parse ip c!"http://test.com/to/file.json#fragment/part"; let o ← Uri.parse ip c!"./to/file.json"; .ok (Uri.text (← Uri.resolve ip b o))) == .ok c!"http://test.com/to/to/file.json"
#guard (do let b ← Uri.parse ip c!"http://test.com/to/file.json#fragment/part"; let o ← Uri.parse ip c!"to/file.json"; .ok (Uri.text (← Uri.resolve ip b o))) == .ok c!"http://test.com/to/to/file.json"
-- tests/test_uri.py 157-163
#guard (do let u ← Uri.parse ip c!"#/only/fragment"; .ok (!Uri.truth (← Uri.baseUri ip u) && u.fragment == c!"/only/fragment")) == .ok true
-- tests/test_uri.py 166-174
#guard (do .ok (Uri.text (← Uri.parse ip c!"https://domain.com/../some/../path/index.htm"))) == .ok c!"https://domain.com/path/index.htm"

-- tests/test_iso_datetime.py 15-30
#guard parseTime .ascii c!"202010" == .ok (⟨20, 20, 10, 0⟩, none)
#guard parseTime .ascii c!"20:20:10" == .ok (⟨20, 20, 10, 0⟩, none)
#guard parseTime .ascii c!"20:20:10Z" == .ok (⟨20, 20, 10, 0⟩, some 0)
#guard parseTime .ascii c!"20:20:10+02:00" == .ok (⟨20, 20, 10, 0⟩, some 120)
-- tests/test_iso_datetime.py 33-50
#guard parseDuration .ascii secs c!"P1W" == .ok (7 * 86400000000)
#guard parseDuration .ascii secs c!"P1D" == .ok 86400000000
#guard parseDuration .ascii secs c!"PT1H" == .ok 3600000000
#guard parseDuration .ascii secs c!"PT1M" == .ok 60000000
#guard parseDuration .ascii secs c!"PT1S" == .ok 1000000
#guard parseDuration .ascii secs c!"PT1.234S" == .ok 1234000
-- tests/test_iso_datetime.py 53-61
#guard parseDuration .ascii secs c!"P1W8DT3S" == .ok (15 * 86400000000 + 3000000)
#guard parseDuration .ascii secs c!"PT5H6M7S" == .ok ((5 * 3600 + 6 * 60 + 7) * 1000000)
#guard parseDuration .ascii secs c!"P2DT3H4M" == .ok ((2 * 86400 + 3 * 3600 + 4 * 60) * 1000000)
-- tests/test_iso_datetime.py 64-78
#guard durationText (7 * 86400) == c!"P1W"
#guard durationText (11 * 86400) == c!"P1W4D"
#guard durationText (25 * 3600) == c!"P1DT1H"
#guard durationText (12980 * 60) == c!"P1W2DT20M"
#guard durationText (13040 * 60) == c!"P1W2DT1H20M"
#guard durationText 80 == c!"PT1M20S"
#guard durationText (-80) == c!"-PT1M20S"
#guard durationText (60 - 80) == c!"-PT20S"
-- tests/test_iso_datetime.py 81-110
#guard parseDatetime .ascii c!"20201010T202010" == .ok (⟨2020, 10, 10⟩, ⟨20, 20, 10, 0⟩, none)
#guard parseDatetime .ascii c!"2020-10-10T20:20:10" == .ok (⟨2020, 10, 10⟩, ⟨20, 20, 10, 0⟩, none)
#guard parseDatetime .ascii c!"2020-10-10 20:20:10" == .ok (⟨2020, 10, 10⟩, ⟨20, 20, 10, 0⟩, none)
#guard parseDatetime .ascii c!"2020-10-10 20:20:10Z" == .ok (⟨2020, 10, 10⟩, ⟨20, 20, 10, 0⟩, some 0)
-- tests/test_iso_datetime.py 113-123
#guard parseDate .ascii c!"20201210" == .ok ⟨2020, 12, 10⟩
#guard parseDate .ascii c!"2020-12-10" == .ok ⟨2020, 12, 10⟩
#guard parseDate .ascii c!"2020-1210" == .ok ⟨2020, 12, 10⟩
#guard parseDate .ascii c!"202012-10" == .ok ⟨2020, 12, 10⟩
-- tests/test_json_pointer.py 7-16, on some of the texts it draws
#guard (do .ok (Pointer.print (← Pointer.parse c!""))) == .ok c!"/"
#guard (do .ok (Pointer.print (← Pointer.parse c!"/a~0b/~1c//d"))) == .ok c!"/a~0b/~1c//d"

-- tests/types/test_json_array.py 46-48
#guard nodeEqVal (wrap (.list [.int 1])) (.list [.int 1]) == .ok true
#guard nodeEqVal (wrap (.list [.int 2, .bool true, .int 5, .flt (.fin 1 1)])) (.list [.int 2, .bool true, .int 5, .flt (.fin 1 1)]) == .ok true
-- tests/types/test_json_boolean.py 12-19
#guard nodeEqVal (.bool true) (.bool true) == .ok true
#guard nodeEqVal (.bool false) (.bool false) == .ok true
#guard nodeEq (.bool true) (.bool true) == .ok true
#guard nodeEq (.bool false) (.bool false) == .ok true
#guard nodeEq (.bool false) (.bool true) == .ok false
#guard nodeEqVal (.bool true) (.bool false) == .ok false
-- tests/types/test_json_null.py 12-13
#guard nodeEqVal .null .null == .ok true
-- tests/types/test_json_number.py 33-45
#guard jnLe (.fin 10) (.node (.num (.fin 10))) == .ok true
#guard jnLt (.fin 10) (.val (.int 11)) == .ok true
#guard jnLt (.fin 10) (.node (.num (.fin 11))) == .ok true
#guard jnGt (.fin 10) (.val (.int 9)) == .ok true
#guard jnGt (.fin 10) (.node (.num (.fin 9))) == .ok true
#guard jnGe (.fin 10) (.node (.num (.fin 9))) == .ok true
#guard jnEq (.fin 10) (.val (.int 10)) == .ok true
#guard jnEq (.fin 10) (.node (.num (.fin 10))) == .ok true
-- tests/types/test_json_number.py 48-64
#guard jnAdd (.fin 1) (.val (.int 1)) == .ok (.fin 2)
#guard jnAdd (.fin 1) (.val (.flt (.fin (5404319552844595 / 4503599627370496) (6 / 5)))) == .ok (.fin (11 / 5))
#guard jnAdd (.fin 1) (.val (.dec (.fin (6 / 5)))) == .ok (.fin (11 / 5))
#guard jnAdd (.fin (6 / 5)) (.val (.dec (.fin (6 / 5)))) == .ok (.fin (12 / 5))
#guard jnAdd (.fin (6 / 5)) (.node (.num (.fin 1))) == .ok (.fin (11 / 5))
-- tests/types/test_json_object.py 28-30
#guard nodeEq (wrap (.dict [(c!"a", .int 1)])) (wrap (.dict [(c!"a", .int 1)])) == .ok true
#guard nodeEq (wrap (.dict [(c!"a", .int 1)])) (wrap (.dict [(c!"a", .int 2)])) == .ok false
-- tests/types/test_json_srting.py 14-16
#guard nodeEqVal (.str c!"test") (.str c!"test") == .ok true
#guard nodeEqVal (.str c!"123") (.str c!"test") == .ok false

end Verif.Check
