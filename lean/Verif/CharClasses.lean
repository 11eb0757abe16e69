import Verif.Nom
/-!
# The classes of ASCII characters, listed

The specifications use the character classes of the Rust standard library by name.  Here each class of ASCII
characters is proved to be a list of characters, so that a wrong boundary in a class is seen.
-/
set_option autoImplicit false
namespace Verif
open Nom

/-- A property of characters that holds below 128 by listing, and of no character above. -/
theorem ascii_class {p : Char → Bool} {l : List Char} (h1 : ∀ n, n < 128 → p (Char.ofNat n) = l.contains (Char.ofNat n))
    (h2 : ∀ c : Char, 128 ≤ c.toNat → p c = false) (h3 : ∀ c ∈ l, c.toNat < 128) (c : Char) : p c = true ↔ c ∈ l := by
  by_cases h : c.toNat < 128
  · have := h1 c.toNat h
    rw [Char.ofNat_toNat] at this
    rw [this, List.contains_iff_mem]
  · constructor
    · intro hp; rw [h2 c (by omega)] at hp; simp at hp
    · intro hl; exact absurd (h3 c hl) h

theorem lower_le {a c : Char} (ha : a.toNat < 128) (hc : 128 ≤ c.toNat) : decide (c ≤ a) = false := by
  rw [decide_eq_false_iff_not, Char.le_def, UInt32.le_iff_toNat_le]
  have : c.val.toNat = c.toNat := rfl
  have : a.val.toNat = a.toNat := rfl
  omega

theorem isDigit_list (c : Char) : isDigit c = true ↔ c ∈ cs!"0123456789" :=
  ascii_class (by decide +kernel) (fun c h => by simp only [isDigit, lower_le (a := '9') (by decide) h, Bool.and_false]) (by decide) c

theorem isHexDigit_list (c : Char) : isHexDigit c = true ↔ c ∈ cs!"0123456789abcdefABCDEF" :=
  ascii_class (by decide +kernel) (fun c h => by
    simp only [isHexDigit, isDigit, lower_le (a := '9') (by decide) h, lower_le (a := 'f') (by decide) h,
      lower_le (a := 'F') (by decide) h, Bool.and_false, Bool.or_self]) (by decide) c

theorem isAlpha_list (c : Char) : isAlpha c = true ↔ c ∈ cs!"abcdefghijklmnopqrstuvwxyzABCDEFGHIJKLMNOPQRSTUVWXYZ" :=
  ascii_class (by decide +kernel) (fun c h => by
    simp only [isAlpha, lower_le (a := 'z') (by decide) h, lower_le (a := 'Z') (by decide) h, Bool.and_false, Bool.or_self])
    (by decide) c

theorem isAsciiUpper_list (c : Char) : isAsciiUpper c = true ↔ c ∈ cs!"ABCDEFGHIJKLMNOPQRSTUVWXYZ" :=
  ascii_class (by decide +kernel) (fun c h => by simp only [isAsciiUpper, lower_le (a := 'Z') (by decide) h, Bool.and_false])
    (by decide) c

theorem isAsciiPunct_list (c : Char) : isAsciiPunct c = true ↔ c ∈ cs!"!\"#$%&'()*+,-./:;<=>?@[\\]^_`{|}~" :=
  ascii_class (by decide +kernel) (fun c h => by simp only [isAsciiPunct]; simp; omega) (by decide) c

theorem isAsciiWs_list (c : Char) : isAsciiWs c = true ↔ c ∈ [' ', '\t', '\n', Char.ofNat 12, '\r'] :=
  ascii_class (by decide +kernel) (fun c h => by
    have h1 : c ≠ ' ' := by rintro rfl; revert h; decide
    have h2 : c ≠ '\t' := by rintro rfl; revert h; decide
    have h3 : c ≠ '\n' := by rintro rfl; revert h; decide
    have h4 : c ≠ '\r' := by rintro rfl; revert h; decide
    simp only [isAsciiWs]; simp [h1, h2, h3, h4]; omega) (by decide) c

/-- The control characters: the first 32 characters and DEL. -/
theorem isAsciiControl_list (c : Char) : isAsciiControl c = true ↔ c ∈ (List.range 32).map Char.ofNat ++ ['\x7f'] :=
  ascii_class (by decide +kernel) (fun c h => by simp only [isAsciiControl]; simp; omega) (by decide +kernel) c

theorem isMultispace_list (c : Char) : isMultispace c = true ↔ c ∈ cs!" \t\r\n" := by
  simp [isMultispace, or_assoc]

theorem isSpace_list (c : Char) : isSpace c = true ↔ c ∈ cs!" \t" := by simp [isSpace]

/-- Values of hexadecimal digits. -/
theorem hexVal_list : cs!"0123456789abcdef".map hexVal = List.range 16 ∧ cs!"ABCDEF".map hexVal = [10, 11, 12, 13, 14, 15] := by
  decide

/-- Unicode white space, listed. -/
theorem isWs_list (c : Char) : isWs c = true ↔ c.toNat ∈ [9, 10, 11, 12, 13, 32, 0x85, 0xA0, 0x1680, 0x2000, 0x2001, 0x2002,
    0x2003, 0x2004, 0x2005, 0x2006, 0x2007, 0x2008, 0x2009, 0x200A, 0x2028, 0x2029, 0x202F, 0x205F, 0x3000] := by
  simp [isWs]; omega

/-! ## The functions of the standard library -/

/-- `trim` takes the white space away from both ends, and nothing else. -/
theorem trim_spec (s : Str) : ∃ a b, s = a ++ (trim s ++ b) ∧ (∀ c ∈ a, isWs c = true) ∧ (∀ c ∈ b, isWs c = true) ∧
    (∀ c, (trim s).head? = some c → isWs c = false) ∧ (∀ c, (trim s).getLast? = some c → isWs c = false) := by
  have h2 : ∀ t : Str, t = trimEnd t ++ (t.reverse.takeWhile isWs).reverse := by
    intro t
    unfold trimEnd
    rw [← List.reverse_append, List.takeWhile_append_dropWhile, List.reverse_reverse]
  refine ⟨s.takeWhile isWs, ((trimStart s).reverse.takeWhile isWs).reverse, ?_, ?_, ?_, ?_, ?_⟩
  · have := h2 (trimStart s)
    unfold trim
    rw [← this]
    exact List.takeWhile_append_dropWhile.symm
  · intro c hc
    exact List.all_eq_true.1 List.all_takeWhile c hc
  · intro c hc
    exact List.all_eq_true.1 List.all_takeWhile c (List.mem_reverse.1 hc)
  · intro c hc
    have h3 := h2 (trimStart s)
    have h4 : (trimStart s).head? = some c := by
      rw [h3]
      unfold trim at hc
      cases h : trimEnd (trimStart s) with
      | nil => rw [h] at hc; simp at hc
      | cons d l => rw [h] at hc; simpa using hc
    unfold trimStart at h4
    have := List.head?_dropWhile_not (p := isWs) s
    rw [h4] at this
    simpa using this
  · intro c hc
    unfold trim trimEnd at hc
    rw [List.getLast?_reverse] at hc
    have := List.head?_dropWhile_not (p := isWs) (trimStart s).reverse
    rw [hc] at this
    simpa using this

/-- `lines` of a text without a line feed. -/
theorem rustLines_one {l : Str} (h : '\n' ∉ l) : rustLines l = if l = [] then [] else [l] := by
  have key : ∀ (l acc : Str), '\n' ∉ l → rustLinesAux l acc = if acc ++ l = [] then [] else [acc ++ l] := by
    intro l
    induction l with
    | nil => intro acc _; cases acc <;> simp [rustLinesAux]
    | cons c l ih =>
      intro acc h
      simp only [List.mem_cons, not_or] at h
      rw [rustLinesAux.eq_3 acc c l (fun e => h.1 e.symm), ih _ h.2]
      simp
  have := key l [] h
  rwa [List.nil_append] at this

/-- `lines` of a text with a line feed: the line in front of the first one, without one carriage return at its
end, and the lines of what follows. -/
theorem rustLines_cons {l s : Str} (h : '\n' ∉ l) :
    rustLines (l ++ '\n' :: s) = (if l.getLast? = some '\r' then l.dropLast else l) :: rustLines s := by
  have key : ∀ (l acc : Str), '\n' ∉ l → rustLinesAux (l ++ '\n' :: s) acc =
      (if (acc ++ l).getLast? = some '\r' then (acc ++ l).dropLast else acc ++ l) :: rustLines s := by
    intro l
    induction l with
    | nil => intro acc _; simp [rustLinesAux, rustLines]
    | cons c l ih =>
      intro acc h
      simp only [List.mem_cons, not_or] at h
      rw [List.cons_append, rustLinesAux.eq_3 acc c _ (fun e => h.1 e.symm), ih _ h.2]
      simp
  have := key l [] h
  rwa [List.nil_append] at this

/-- `join`: the separator between neighbours. -/
theorem joinWith_spec (sep a : Str) (l : List Str) : joinWith sep (a :: l) = a ++ l.flatMap (fun b => sep ++ b) := by
  induction l generalizing a with
  | nil => simp [joinWith]
  | cons b l ih => simp [joinWith, ih]

/-- ASCII lower case. -/
theorem asciiLower_list : cs!"ABCDEFGHIJKLMNOPQRSTUVWXYZ".map asciiLower = cs!"abcdefghijklmnopqrstuvwxyz" ∧
    ∀ c, c ∉ cs!"ABCDEFGHIJKLMNOPQRSTUVWXYZ" → asciiLower c = c := by
  refine ⟨by decide, fun c h => ?_⟩
  have : isAsciiUpper c = false := by
    cases h' : isAsciiUpper c with
    | false => rfl
    | true => exact absurd ((isAsciiUpper_list c).1 h') h
  simp [asciiLower, this]

end Verif
