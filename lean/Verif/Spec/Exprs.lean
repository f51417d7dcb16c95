import Verif.Spec.Words

/-! # Specification of Python string literals and balanced expressions (for C32)

Nothing here refers to the lexer's scanning functions. -/

namespace Marcel

/-- A Python string literal (without prefix): a quote, then characters other than that quote and backslash, and
backslashes followed by any character, then the quote; or the same with three quotes, in which the body may contain
quotes as long as no three in a row (counting the final ones) come before the end. -/
inductive PyLit : Str → Prop
  | single (q : Char) (ds : List DItem) (hq : q = '\'' ∨ q = '"')
      (h : ∀ c, DItem.chr c ∈ ds → c ≠ q ∧ c ≠ '\\') :
      PyLit (q :: ds.flatMap DItem.raw ++ [q])
  | triple (q : Char) (ds : List DItem) (hq : q = '\'' ∨ q = '"')
      (h : ∀ c, DItem.chr c ∈ ds → c ≠ '\\')
      (h3 : ∀ a b, ds = a ++ b → b ≠ [] → ¬ [q, q, q] <+: b.flatMap DItem.raw ++ [q, q, q]) :
      PyLit (q :: q :: q :: ds.flatMap DItem.raw ++ [q, q, q])

/-- Text in which every parenthesis outside of string literals has its match. The last condition of `lit` says that
an empty literal is not directly followed by another quote of the same kind (that would be a triple quote). -/
inductive Balanced : Str → Prop
  | nil : Balanced []
  | chr (c : Char) (s : Str) (h1 : c ≠ '(') (h2 : c ≠ ')') (h3 : c ≠ '\'') (h4 : c ≠ '"') (hs : Balanced s) :
      Balanced (c :: s)
  | group (a b : Str) (ha : Balanced a) (hb : Balanced b) : Balanced ('(' :: a ++ ')' :: b)
  | lit (l s : Str) (hl : PyLit l) (hs : Balanced s) (hm : ∀ q, l = [q, q] → s.head? ≠ some q) : Balanced (l ++ s)

end Marcel
