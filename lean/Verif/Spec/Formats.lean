import Verif.Spec.Iso
/-! # Grammars of formats -/

namespace Verif.Formats
open Verif

/-- A label over the given letters: 1 to 63 letters, digits and hyphens, with a letter or digit at both ends. -/
def Label (letter : Char → Prop) (L : Str) : Prop :=
  L ≠ [] ∧ L.length ≤ 63 ∧ (∀ c ∈ L, letter c ∨ c.isDigit = true ∨ c = '-') ∧ L.head? ≠ some '-' ∧ L.getLast? ≠ some '-'

/-- Labels separated by points. -/
def HostText (letter : Char → Prop) (h : Str) : Prop := ∃ Ls, Ls ≠ [] ∧ (∀ L ∈ Ls, Label letter L) ∧ h = strJoin c!"." Ls

/-- `local@host` without two points in a row. -/
def EmailText (letter : Char → Prop) (s : Str) : Prop :=
  ∃ l h, l ≠ [] ∧ (∀ c ∈ l, letter c ∨ c.isDigit = true ∨ c ∈ c!"-.!#$%&'*+/=?^_`{|}~") ∧ HostText letter h ∧
    s = l ++ '@' :: h ∧ ∀ a b, s ≠ a ++ (c!".." ++ b)

/-- At least one digit. -/
def Digits (s : Str) : Prop := s ≠ [] ∧ ∀ c ∈ s, c.isDigit = true

/-- Identifiers separated by points. -/
def Idents (letter : Char → Prop) (s : Str) : Prop :=
  ∃ Is, Is ≠ [] ∧ (∀ I ∈ Is, I ≠ [] ∧ ∀ c ∈ I, letter c ∨ c.isDigit = true ∨ c = '-') ∧ s = strJoin c!"." Is

/-- `X.Y.Z`, then `-` and identifiers, then `+` and identifiers, the last two optional. -/
def SemverText (letter : Char → Prop) (s : Str) : Prop :=
  ∃ x y z p b, Digits x ∧ Digits y ∧ Digits z ∧ (p = [] ∨ ∃ i, Idents letter i ∧ p = '-' :: i) ∧
    (b = [] ∨ ∃ i, Idents letter i ∧ b = '+' :: i) ∧ s = x ++ '.' :: (y ++ '.' :: (z ++ (p ++ b)))

/-- The 52 letters. -/
def Letter (c : Char) : Prop := ('a' ≤ c ∧ c ≤ 'z') ∨ ('A' ≤ c ∧ c ≤ 'Z')

/-- Letters, and the four other characters whose lower or upper case form is a letter from `a` to `z`. -/
def LetterI (c : Char) : Prop := Letter c ∨ c ∈ ['\u0130', '\u0131', '\u017f', '\u212a']

/-- A number from 0 to 255 in decimal without leading zeros. -/
def Octet (s : Str) : Prop := ∃ n, n ≤ 255 ∧ s = natStr n

/-- Four such numbers. -/
def Ipv4Text (s : Str) : Prop := ∃ a b c d, Octet a ∧ Octet b ∧ Octet c ∧ Octet d ∧ s = strJoin c!"." [a, b, c, d]

/-- One to four hexadecimal digits. -/
def Hextet (s : Str) : Prop :=
  s ≠ [] ∧ s.length ≤ 4 ∧ ∀ c ∈ s, c.isDigit = true ∨ ('a' ≤ c ∧ c ≤ 'f') ∨ ('A' ≤ c ∧ c ≤ 'F')

/-- Pieces for `n` groups of 16 bits: one each, of which the last two may be one IPv4 address. -/
def Groups (ps : List Str) (n : Nat) : Prop :=
  ((∀ p ∈ ps, Hextet p) ∧ n = ps.length) ∨ ∃ hs a, ps = hs ++ [a] ∧ (∀ p ∈ hs, Hextet p) ∧ Ipv4Text a ∧ n = hs.length + 2

/-- The text of an IPv6 address (RFC 4291, 2.2): eight groups separated by colons; or fewer, with `::` once in place of the others. -/
def Ipv6Text (s : Str) : Prop :=
  (∃ ps, Groups ps 8 ∧ s = strJoin c!":" ps) ∨
  ∃ L R m, (∀ p ∈ L, Hextet p) ∧ Groups R m ∧ L.length + m ≤ 7 ∧ s = strJoin c!":" L ++ (c!"::" ++ strJoin c!":" R)

/-- The same, followed by `%` and a zone (RFC 4007, 11). -/
def Ipv6Zoned (s : Str) : Prop := ∃ a z, Ipv6Text a ∧ z ≠ [] ∧ '%' ∉ z ∧ '/' ∉ z ∧ s = a ++ '%' :: z

/-- A scheme (letters, digits, `+`, `,`, `-`, `.`, the first a letter), a colon, and characters that are not white space. -/
def UriText (letter : Char → Prop) (u : UDB) (s : Str) : Prop :=
  ∃ a sch rest, letter a ∧ (∀ c ∈ sch, letter c ∨ c.isDigit = true ∨ c ∈ c!"+,-.") ∧ (∀ c ∈ rest, u.space c = false) ∧
    s = a :: (sch ++ ':' :: rest)

/-- The word in any mixture of cases, `ſ` counting as an `s`. -/
def AnyCase : Str → Str → Prop
  | [], [] => True
  | a :: w, c :: s => (c = a ∨ c = a.toUpper ∨ (a = 's' ∧ c = '\u017f')) ∧ AnyCase w s
  | _, _ => False

/-- A letter or anything from U+00A1 to U+FFFF. -/
def WideLetter (c : Char) : Prop := Letter c ∨ (0xa1 ≤ c.toNat ∧ c.toNat ≤ 0xffff)

/-- Words of such characters, digits and underscores, separated by single hyphens. -/
def UrlLabel (L : Str) : Prop :=
  ∃ Ws, Ws ≠ [] ∧ (∀ W ∈ Ws, W ≠ [] ∧ ∀ c ∈ W, WideLetter c ∨ c.isDigit = true ∨ c = '_') ∧ L = strJoin c!"-" Ws

/-- Labels separated by points, the last of at least two letters. -/
def UrlName (h : Str) : Prop :=
  ∃ Ls tld, Ls ≠ [] ∧ (∀ L ∈ Ls, UrlLabel L) ∧ 2 ≤ tld.length ∧ (∀ c ∈ tld, WideLetter c) ∧ h = strJoin c!"." Ls ++ '.' :: tld

section
variable (u : UDB)

/-- One to three digits (`1` to `223` if ASCII). -/
def Octet1 (A : Str) : Prop :=
  (∃ a, '1' ≤ a ∧ a ≤ '9' ∧ (A = [a] ∨ ∃ b, u.isDigit b ∧ A = [a, b])) ∨ (∃ b c, u.isDigit b ∧ u.isDigit c ∧ A = ['1', b, c]) ∨
  (∃ b c, '0' ≤ b ∧ b ≤ '1' ∧ u.isDigit c ∧ A = ['2', b, c]) ∨ ∃ c, '0' ≤ c ∧ c ≤ '3' ∧ A = ['2', '2', c]
/-- `0` to `255`, if ASCII; one leading zero allowed. -/
def Octet2 (A : Str) : Prop :=
  (∃ b, u.isDigit b ∧ A = [b]) ∨ (∃ b c, u.isDigit b ∧ u.isDigit c ∧ (A = [b, c] ∨ A = ['1', b, c])) ∨
  (∃ b c, '0' ≤ b ∧ b ≤ '4' ∧ u.isDigit c ∧ A = ['2', b, c]) ∨ ∃ c, '0' ≤ c ∧ c ≤ '5' ∧ A = ['2', '5', c]
/-- `1` to `254`, if ASCII. -/
def Octet4 (A : Str) : Prop :=
  (∃ a, '1' ≤ a ∧ a ≤ '9' ∧ (A = [a] ∨ ∃ b, u.isDigit b ∧ A = [a, b])) ∨ (∃ b c, u.isDigit b ∧ u.isDigit c ∧ A = ['1', b, c]) ∨
  (∃ b c, '0' ≤ b ∧ b ≤ '4' ∧ u.isDigit c ∧ A = ['2', b, c]) ∨ ∃ c, '0' ≤ c ∧ c ≤ '4' ∧ A = ['2', '5', c]

/-- An address that begins so is private. -/
def PrivateParts (A B : Str) : Prop :=
  A = c!"10" ∨ A = c!"127" ∨ (A = c!"169" ∧ B = c!"254") ∨ (A = c!"192" ∧ B = c!"168") ∨
  (A = c!"172" ∧ ((∃ c, '6' ≤ c ∧ c ≤ '9' ∧ B = ['1', c]) ∨ (∃ c, u.isDigit c ∧ B = ['2', c]) ∨ ∃ c, '0' ≤ c ∧ c ≤ '1' ∧ B = ['3', c]))

/-- A dotted address that is not private. -/
def UrlAddress (h : Str) : Prop :=
  ∃ A B C D, Octet1 u A ∧ Octet2 u B ∧ Octet2 u C ∧ Octet4 u D ∧ ¬ PrivateParts u A B ∧ h = A ++ '.' :: (B ++ '.' :: (C ++ '.' :: D))

/-- Scheme, user information, host, port, path. -/
def UrlText (s : Str) : Prop :=
  ∃ sch user host port path, (AnyCase c!"http" sch ∨ AnyCase c!"https" sch ∨ AnyCase c!"ftp" sch) ∧
    (user = [] ∨ ∃ t, t ≠ [] ∧ (∀ c ∈ t, u.space c = false) ∧ user = t ++ ['@']) ∧ (UrlAddress u host ∨ UrlName host) ∧
    (port = [] ∨ ∃ t, 2 ≤ t.length ∧ t.length ≤ 5 ∧ (∀ c ∈ t, u.isDigit c) ∧ port = ':' :: t) ∧
    (path = [] ∨ ∃ t, (∀ c ∈ t, u.space c = false) ∧ path = '/' :: t) ∧ s = sch ++ (c!"://" ++ (user ++ (host ++ (port ++ path))))
end

end Verif.Formats
