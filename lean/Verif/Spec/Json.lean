import Verif.Model.Basic

/-! Base 64 and JSON texts without spaces, as far as they are used. -/

namespace Willow.Spec

/-- The lowest `w` bits of a number, the highest first. -/
def binary : Nat → Nat → List Nat
  | 0, _ => []
  | w + 1, n => n / 2 ^ w % 2 :: binary w n

/-- The 64 characters of RFC 4648, section 4. -/
def base64Alphabet : Bytes := "ABCDEFGHIJKLMNOPQRSTUVWXYZabcdefghijklmnopqrstuvwxyz0123456789+/".toUTF8.toList

/-- `text` is `bytes` in base 64: the places of its characters in the alphabet, each as six bits, are the bits of the bytes,
with zeros at the end if there are not enough of them for a character, and `=` signs make the characters up to fours. -/
def Base64Text (bytes text : Bytes) : Prop :=
  ∃ (places : List Nat) (pad : Nat), text.map some = places.map (base64Alphabet[·]?) ++ List.replicate pad (some 61) ∧ pad < 3 ∧
    text.length % 4 = 0 ∧ places.flatMap (binary 6) = bytes.flatMap (fun b => binary 8 b.toNat) ++ List.replicate (2 * pad) 0

/-- Values of JSON, without `true`, `false` and fractions. -/
inductive Json where
  | null
  | number (n : Nat)
  | string (s : Bytes)
  | array (l : List Json)
  | object (fields : List (Bytes × Json))

/-- A string without characters that are escaped. -/
def Plain (s : Bytes) : Prop := ∀ c ∈ s, 32 ≤ c ∧ c < 127 ∧ c ≠ 34 ∧ c ≠ 92

mutual
/-- `text` is the value in JSON. -/
inductive JsonText : Json → Bytes → Prop
  | null : JsonText .null "null".toUTF8.toList
  | number {n : Nat} {digits : Bytes} : digits ≠ [] → (∀ c ∈ digits, 48 ≤ c ∧ c ≤ 57) → (digits.head? = some 48 → digits = [48]) →
      digits.foldl (fun v c => 10 * v + (c.toNat - 48)) 0 = n → JsonText (.number n) digits
  | string {s : Bytes} : Plain s → JsonText (.string s) ([34] ++ s ++ [34])
  | empty : JsonText (.array []) [91, 93]
  | array {l : List Json} {t : Bytes} : JsonItems l t → JsonText (.array l) ([91] ++ t ++ [93])
  | object {l : List (Bytes × Json)} {t : Bytes} : JsonFields l t → JsonText (.object l) ([123] ++ t ++ [125])
/-- Values with commas between them. -/
inductive JsonItems : List Json → Bytes → Prop
  | one {x : Json} {t : Bytes} : JsonText x t → JsonItems [x] t
  | more {x : Json} {t : Bytes} {l : List Json} {ts : Bytes} : JsonText x t → JsonItems l ts → JsonItems (x :: l) (t ++ [44] ++ ts)
/-- Names and values with commas between them. -/
inductive JsonFields : List (Bytes × Json) → Bytes → Prop
  | one {name : Bytes} {x : Json} {t : Bytes} : Plain name → JsonText x t → JsonFields [(name, x)] ([34] ++ name ++ [34, 58] ++ t)
  | more {name : Bytes} {x : Json} {t : Bytes} {l : List (Bytes × Json)} {ts : Bytes} : Plain name → JsonText x t →
      JsonFields l ts → JsonFields ((name, x) :: l) ([34] ++ name ++ [34, 58] ++ t ++ [44] ++ ts)
end

end Willow.Spec
