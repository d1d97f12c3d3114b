import Verif.Model.Dialect
import Verif.Model.Cli
/-
Model of the description and validity of a dialect.
Sources: /repo/src/dialect.cpp:197-249, /repo/include/libvroom/dialect.h:50-105.
-/
namespace Vroom

/-- The delimiter as described (dialect.cpp:200-221); the named cases other than the tab print like the default. -/
def delimText (c : UInt8) : List UInt8 :=
  if c == 44 then asc "','"
  else if c == 9 then asc "'\\t'"
  else if c == 59 then asc "';'"
  else if c == 124 then asc "'|'"
  else if c == 58 then asc "':'"
  else [39, c, 39]

/-- The quote as described (dialect.cpp:223-232). -/
def quoteText (c : UInt8) : List UInt8 :=
  if c == 34 then asc "'\"'"
  else if c == 39 then asc "\"'\""
  else if c == 0 then asc "none"
  else [39, c, 39]

/-- The escape style as described (dialect.cpp:234-241). -/
def escapeText (d : Dialect) : List UInt8 :=
  if d.doubleQuote then asc "double"
  else if d.escape == 92 then asc "backslash"
  else [39, d.escape, 39]

/-- `Dialect::to_string` (dialect.cpp:197-249). -/
def Dialect.text (d : Dialect) : List UInt8 :=
  asc "Dialect{delimiter=" ++ (delimText d.delimiter ++ (asc ", quote=" ++ (quoteText d.quote ++ (asc ", escape=" ++ (escapeText d ++
    ((if d.comment ≠ 0 then asc ", comment='" ++ [d.comment] ++ asc "'" else []) ++ asc "}"))))))

/-- `Dialect::is_valid` (dialect.h:76-91).  `char` is signed, so bytes from 128 on are below 32. -/
def Dialect.isValid (d : Dialect) : Bool :=
  if d.delimiter == d.quote then false
  else if d.delimiter == 10 || d.delimiter == 13 then false
  else if d.quote == 10 || d.quote == 13 then false
  else if d.delimiter != 9 && (decide (d.delimiter < 32) || decide (d.delimiter > 126)) then false
  else if decide (d.quote < 32) || decide (d.quote > 126) then false
  else true

/-- Whether `Dialect::validate` returns without throwing (dialect.h:95-105). -/
def Dialect.validates (d : Dialect) : Bool :=
  !(d.delimiter == d.quote || (d.delimiter == 10 || d.delimiter == 13) || (d.quote == 10 || d.quote == 13))

/-- `Dialect::csv`, `tsv`, `semicolon`, `pipe`, `csv_with_comments` (dialect.h:50). -/
def Dialect.csv : Dialect := ⟨44, 34, 34, true, 0⟩
/-- dialect.h:53. -/
def Dialect.tsv : Dialect := ⟨9, 34, 34, true, 0⟩
/-- dialect.h:56. -/
def Dialect.semicolon : Dialect := ⟨59, 34, 34, true, 0⟩
/-- dialect.h:59. -/
def Dialect.pipe : Dialect := ⟨124, 34, 34, true, 0⟩
/-- dialect.h:62-64. -/
def Dialect.csvWithComments (c : UInt8) : Dialect := ⟨44, 34, 34, true, c⟩

end Vroom
