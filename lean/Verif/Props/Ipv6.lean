import Verif.Proofs.Ipv6
/-!
# C67: the formats for IP addresses

`Ipv4Text`, `Ipv6Text` and `Ipv6Zoned` are in `Verif.Spec.Formats`.
-/

namespace Verif.Props
open Verif Formats

variable (w : World) (docs : List Doc) (voc : List Kw) (f : Nat) (items : List (Str × Node)) (ctx : Ctx) (E : Formats.Env)

/-- C67: `{format: ip-address-v6}` accepts a string exactly if it is the text of an IPv6 address, with or without a zone. -/
theorem C67_ipv6 (hc : CtxOk ctx) (h : FormatSchema voc items c!"ip-address-v6") (s : Str) :
    (validateN (withFormats E w []) docs voc (f + 2) (.obj items) (.str s) ctx = .ok () ↔ Ipv6Text s ∨ Ipv6Zoned s) ∧
    (¬ (Ipv6Text s ∨ Ipv6Zoned s) → validateN (withFormats E w []) docs voc (f + 2) (.obj items) (.str s) ctx =
      rejected c!"format_error" ctx.path c!"ip-address-v6") :=
  format_test w docs voc f items ctx E hc h (check := fun v => .ok (ipv6 E v)) rfl s (b := ipv6Ok s) rfl (ipv6Ok_iff s)

/-- C67: `{format: ip-address}` accepts a string exactly if it is the text of an IPv4 or IPv6 address. -/
theorem C67_ip (hc : CtxOk ctx) (h : FormatSchema voc items c!"ip-address") (s : Str) :
    (validateN (withFormats E w []) docs voc (f + 2) (.obj items) (.str s) ctx = .ok () ↔ Ipv4Text s ∨ Ipv6Text s ∨ Ipv6Zoned s) ∧
    (¬ (Ipv4Text s ∨ Ipv6Text s ∨ Ipv6Zoned s) → validateN (withFormats E w []) docs voc (f + 2) (.obj items) (.str s) ctx =
      rejected c!"format_error" ctx.path c!"ip-address") :=
  format_test w docs voc f items ctx E hc h (check := fun v => .ok (ipv4 E v || ipv6 E v)) rfl s (b := ipv4Ok s || ipv6Ok s) rfl
    (by rw [Bool.or_eq_true, ipv4Ok_iff, ipv6Ok_iff])

/-- No text is both. -/
theorem C67_apart (s : Str) : ¬ (Ipv4Text s ∧ (Ipv6Text s ∨ Ipv6Zoned s)) := by
  rintro ⟨h4, h6⟩
  have no := ipv4_no ((ipv4Ok_iff s).2 h4) (c := ':') (by decide) (by decide)
  have colon : ∀ {a : Str}, Ipv6Text a → ':' ∈ a := by
    rintro a (⟨ps, h, rfl⟩ | ⟨L, R, m, hL, hR, hl, rfl⟩)
    · have hl : 2 ≤ ps.length := by
        rcases h with ⟨-, h⟩ | ⟨hs, x, rfl, -, -, h⟩
        · omega
        · simp; omega
      match ps, hl with
      | p :: q :: r, _ => simp [strJoin]
    · simp
  rcases h6 with h | ⟨a, z, h, -, -, -, rfl⟩
  · exact no (colon h)
  · exact no (by simp [colon h])

example : Ipv6Text c!"2001:db8::8a2e:370:7334" ∧ Ipv6Text c!"::" ∧ Ipv6Text c!"::ffff:192.0.2.128" ∧ Ipv6Zoned c!"fe80::1%eth0" ∧
    ¬ Ipv6Text c!"1::2::3" ∧ ¬ Ipv6Text c!"12345::" ∧ ¬ Ipv6Text c!"1:2:3:4:5:6:7" ∧ ¬ Ipv6Text c!"1:2:3:4:5:6:7:8::" := by
  simp only [← addr_iff]
  refine ⟨by decide, by decide, by decide, ⟨c!"fe80::1", c!"eth0", (addr_iff _).1 (by decide), by decide, by decide, by decide, rfl⟩,
    by decide, by decide, by decide, by decide⟩

end Verif.Props
