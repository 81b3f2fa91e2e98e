import Verif.Base

/-! # Well-formed UTF-8: an independent specification -/

namespace Spec

/-- A continuation byte of UTF-8. -/
def isCont (c : Byte) : Bool := 0x80 ≤ c.toNat && c.toNat ≤ 0xBF

/-- Well-formed UTF-8 (The Unicode Standard, table 3-7; RFC 3629): what `str::from_utf8` accepts. -/
def utf8 : Bytes → Bool
  | [] => true
  | a :: t =>
    if a.toNat ≤ 0x7F then utf8 t
    else
      match t with
      | [] => false
      | b :: t =>
        if 0xC2 ≤ a.toNat ∧ a.toNat ≤ 0xDF then isCont b && utf8 t
        else
          match t with
          | [] => false
          | c :: t =>
            if 0xE0 ≤ a.toNat ∧ a.toNat ≤ 0xEF then
              isCont b && (a.toNat != 0xE0 || 0xA0 ≤ b.toNat) && (a.toNat != 0xED || b.toNat ≤ 0x9F) &&
                isCont c && utf8 t
            else
              match t with
              | [] => false
              | d :: t =>
                if 0xF0 ≤ a.toNat ∧ a.toNat ≤ 0xF4 then
                  isCont b && (a.toNat != 0xF0 || 0x90 ≤ b.toNat) && (a.toNat != 0xF4 || b.toNat ≤ 0x8F) &&
                    isCont c && isCont d && utf8 t
                else false

end Spec
