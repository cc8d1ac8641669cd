import Verif.Proof.XmlBroken
import Verif.Proof.XmlBuilt

/-!
# C92, C93: UTF-8, texts that are cut off, and texts that are not well-formed
-/

namespace Verif
open Spec Xml

private theorem utf8_char (c : Char) : encodeChar c = String.utf8EncodeChar c := by
  have hb := char_bound c
  have e : c.val.toNat = c.toNat := rfl
  unfold encodeChar String.utf8EncodeChar
  simp only [e]
  generalize c.toNat = n at hb
  by_cases h1 : n < 0x80
  · rw [if_pos h1, if_pos (show n ≤ 127 by omega)]
  · rw [if_neg h1, if_neg (show ¬ n ≤ 127 by omega)]
    by_cases h2 : n < 0x800
    · rw [if_pos h2, if_pos (show n ≤ 2047 by omega), show n / 64 % 32 + 192 = 0xC0 + n / 64 by omega, Nat.add_comm (n % 64)]
    · rw [if_neg h2, if_neg (show ¬ n ≤ 2047 by omega)]
      by_cases h3 : n < 0x10000
      · rw [if_pos h3, if_pos (by omega), show n / 4096 % 16 + 224 = 0xE0 + n / 4096 by omega, Nat.add_comm (n % 64), Nat.add_comm (n / 64 % 64)]
      · rw [if_neg h3, if_neg (by omega), show n / 262144 % 8 + 240 = 0xF0 + n / 262144 by omega, Nat.add_comm (n % 64), Nat.add_comm (n / 64 % 64),
          Nat.add_comm (n / 4096 % 64)]

/-- **C92 (the encoding).** The bytes of a text are its UTF-8 encoding (that of Lean's library), in which each character has the shortest form, so that other programs
read the same characters. -/
theorem C92_utf8_standard (s : Str) : encode s = s.flatMap String.utf8EncodeChar := by
  unfold encode
  rw [show encodeChar = String.utf8EncodeChar from funext utf8_char]

example : encode ['߿', 'ࠀ', '￿'] = [0xDF, 0xBF, 0xE0, 0xA0, 0x80, 0xEF, 0xBF, 0xBF] := by
  rw [C92_utf8_standard]
  decide

/-- **C93 (texts that are cut off).** Let any bytes be accepted as XML. If they are cut off anywhere – also in the middle of a character – and what remains is accepted, its nodes
are the first ones of all the bytes, none of them being different or incomplete. -/
theorem C93_cut (part rest : List UInt8) (nodes all : List Node) (h : loadXml (part ++ rest) = .ok all) (hp : loadXml part = .ok nodes) :
    nodes <+: all ∧ nodes.any Node.isElement = true := load_prefix hp h

/-- **C93 (a document that is cut off).** A well-formed document that is cut off anywhere is either rejected or loaded as the complete tree: what is missing was then only
white space, comments or the like. An incomplete tree is never returned. -/
theorem C93_truncated (root : Node) (t : Str) (h : DocumentText root t) (part rest : List UInt8) (hc : encode t = part ++ rest) :
    loadXml part = .ok [root] ∨ ∃ e, loadXml part = .error e := by
  have h1 := (load_document h).1
  rw [hc] at h1
  cases hp : loadXml part with
  | error e => exact Or.inr ⟨e, rfl⟩
  | ok nodes =>
    obtain ⟨⟨z, hz⟩, ha⟩ := load_prefix hp h1
    left
    cases nodes with
    | nil => cases ha
    | cons a as =>
      rw [List.cons_append] at hz
      injection hz with e1 e2
      rw [e1, (List.append_eq_nil_iff.1 e2).1]

private theorem smallDocument : DocumentText (.element ['a'] [] [.text false ['x']]) "<a>x</a>\n".toList :=
  ⟨rfl, by decide +kernel, Or.inl (.element (n := ['a']) (a := []) (b := ['x']) (w := []) (s := ['\n']) (checkName_spec (by decide)) (.nil (by unfold Blank; decide))
    (.text (t := ['x']) (s := []) (.plain (by decide) .nil) (by unfold Blank; decide) (Or.inl rfl) .nil) (by unfold Blank; decide)
    (.space (w := ['\n']) (by unfold Blank; decide) (Or.inl rfl) .nil))⟩

private def isError (r : Except XErr (List Node)) : Bool :=
  match r with
  | .ok _ => false
  | .error _ => true

example : ∃ part rest, encode "<a>x</a>\n".toList = part ++ rest ∧ rest ≠ [] ∧ loadXml part = .ok [.element ['a'] [] [.text false ['x']]] := by
  refine ⟨encode "<a>x</a>".toList, [10], by decide +kernel, by simp, ?_⟩
  rcases C93_truncated _ _ smallDocument (encode "<a>x</a>".toList) [10] (by decide +kernel) with h | ⟨e, he⟩
  · exact h
  · have : isError (loadXml (encode "<a>x</a>".toList)) = false := by decide +kernel
    rw [he] at this
    cases this

example : ∃ part rest, encode "<a>x</a>\n".toList = part ++ rest ∧ isError (loadXml part) = true :=
  ⟨encode "<a>x</a".toList, encode ">\n".toList, by decide +kernel, by decide +kernel⟩

/-- **C93 (malformed texts).** A text that begins as a document does, inside of any elements, and goes on with what cannot be there – its end, an end tag with the wrong name,
markup without a name, a comment, CDATA section or processing instruction that does not end, an attribute without a value or without quotes –, is not accepted, whatever
follows. -/
theorem C93_rejected (names : List Str) (t q : Str) (ht : Unfinished names t) (hq : Wrong names q) (hz : '\x00' ∉ t ++ q) : ∃ e, loadXml (encode (t ++ q)) = .error e :=
  wrong_rejected ht hq hz

private theorem insideA : Unfinished [['a']] "<a>".toList :=
  .enter (t := []) (n := ['a']) (a := []) (b := []) (.start .nil (by simp)) (checkName_spec (by decide)) (.nil (by unfold Blank; decide)) .nil

example : ∃ e, loadXml (encode ("<a>".toList ++ "</b></a>".toList)) = .error e :=
  C93_rejected _ _ _ insideA (.mismatch (m := ['b']) (r := "></a>".toList) (checkName_spec (by decide)) (by decide)
    (by intro c hc; cases hc; unfold NameChar NameStart; decide)) (by decide +kernel)

example : ∃ e, loadXml (encode ("<a>".toList ++ [])) = .error e := C93_rejected _ _ _ insideA .cut (by decide +kernel)

example : ∃ e, loadXml (encode ("<a>".toList ++ "<b c=1/></a>".toList)) = .error e :=
  C93_rejected _ _ _ insideA (.noQuotes (n := ['b']) (a := []) (w := [' ']) (k := ['c']) (b := []) (b2 := []) (r := "1/></a>".toList) (checkName_spec (by decide))
    (.nil (by unfold Blank; decide)) (by simp) (by unfold Blank; decide) (checkName_spec (by decide)) (by unfold Blank; decide) (by unfold Blank; decide)
    (by decide +kernel)) (by decide +kernel)

/-- **C93 (violation: the same attribute twice).** An element with two attributes of the same name, which no well-formed document has, is accepted. -/
theorem C93_duplicate_violated (n k v w t u : Str) (hn : XmlName n) (hk : XmlName k) (hv : AttrData '"' v t) (hw : AttrData '"' w u)
    (hz : '\x00' ∉ '<' :: (n ++ ((' ' :: (k ++ '=' :: '"' :: (t ++ '"' :: (' ' :: (k ++ '=' :: '"' :: (u ++ ['"'])))))) ++ ['/', '>']))) :
    loadXml (encode ('<' :: (n ++ ((' ' :: (k ++ '=' :: '"' :: (t ++ '"' :: (' ' :: (k ++ '=' :: '"' :: (u ++ ['"'])))))) ++ ['/', '>'])))) = .ok [.element n [(k, v), (k, w)] []] := by
  have hb : Blank [] := by intro c hc; cases hc
  have hs : Blank [' '] := by unfold Blank; decide
  refine (load_document ⟨rfl, hz, Or.inl (.empty (s := []) hn ?_ .nil)⟩).1
  exact .cons (w := [' ']) (b1 := []) (b2 := []) (by simp) hs hk hb hb (by simp) hv (.cons (w := [' ']) (b1 := []) (b2 := []) (a := []) (by simp) hs hk hb hb (by simp) hw (.nil hb))

example : loadXml (encode "<n k=\"1\" k=\"2\"/>".toList) = .ok [.element ['n'] [(['k'], ['1']), (['k'], ['2'])] []] :=
  C93_duplicate_violated ['n'] ['k'] ['1'] ['2'] ['1'] ['2'] (checkName_spec (by decide)) (checkName_spec (by decide)) (.plain (by decide) .nil) (.plain (by decide) .nil) (by decide +kernel)

end Verif
