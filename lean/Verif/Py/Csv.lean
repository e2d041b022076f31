import Verif.Py.Str

/-!
CSV files: `csv.writer` as `DataFrame.to_csv` uses it, and the tokenizer of `pandas.read_csv`, both with their default
settings (comma, double quote, quotes only where needed, blank lines skipped).  Texts are characters: the encoding of the
file and the character NUL, at which pandas ends a text, are left out.
-/
namespace Verif.Py
open Verif.Model

/-- characters for which `csv.writer` puts quotes around a text: the comma, the quote, and those of the end of line `nl`
    (`os.linesep`, `"\n"` or `"\r\n"`; from Python 3.13 on both characters count in any case)
    (`to_csv` as used in `mahjong/universe_paifu_convert.py:16`) -/
def csvSpecial (nl : Str) (c : Char) : Bool := c = ',' || c = '"' || nl.contains c

/-- one text of a row (`to_csv` as used in `mahjong/universe_paifu_convert.py:16`) -/
def csvField (nl : Str) (s : Str) : Str :=
  if s.any (csvSpecial nl) then '"' :: (s.flatMap (fun c => if c = '"' then ['"', '"'] else [c]) ++ ['"']) else s

/-- a row of at least two texts (a row of one empty text would be written as `""`)
    (`to_csv` as used in `mahjong/universe_paifu_convert.py:16`) -/
def csvRow (nl : Str) (fields : List Str) : Str := joinWith ',' (fields.map (csvField nl)) ++ nl

/-- a file (`to_csv` as used in `mahjong/universe_paifu_convert.py:16`) -/
def csvText (nl : Str) (rows : List (List Str)) : Str := rows.flatMap (csvRow nl)

/-- the states of the tokenizer: at the start of a row, of a text, in a text, in quotes, after a quote in quotes
    (`pandas.read_csv` as used in `mahjong/record/universe/command.py:91`, `mahjong/record/universe/executor.py:74`) -/
inductive CsvState where
  | record | field | plain | quoted | quote
  deriving DecidableEq, Repr

/-- The tokenizer with the text read so far of a cell and the cells so far of a row.  `\r\n` after a cell counts as two ends
    of line; as blank lines are skipped, that is the same as one.  The end of the file inside quotes is a `ParserError`, which is
    a `ValueError`
    (`pandas.read_csv` as used in `mahjong/record/universe/command.py:91`, `mahjong/record/universe/executor.py:74`). -/
def csvRun : CsvState → Str → List Str → Str → Except PyErr (List (List Str))
  | st, cur, row, [] =>
    match st with
    | .record => .ok []
    | .quoted => .error .valueError
    | _ => .ok [row ++ [cur]]
  | st, cur, row, c :: s =>
    if st = .quoted then if c = '"' then csvRun .quote cur row s else csvRun .quoted (cur ++ [c]) row s
    else if c = '"' ∧ (st = .record ∨ st = .field) then csvRun .quoted cur row s
    else if c = '"' ∧ st = .quote then csvRun .quoted (cur ++ ['"']) row s
    else if c = ',' then csvRun .field [] (row ++ [cur]) s
    else if c = '\n' ∨ c = '\r' then
      if st = .record then csvRun .record cur row s
      else (csvRun .record [] [] s).map (fun rows => (row ++ [cur]) :: rows)
    else csvRun .plain (cur ++ [c]) row s

/-- the rows of a file
    (`pandas.read_csv` as used in `mahjong/record/universe/command.py:91`, `mahjong/record/universe/executor.py:74`) -/
def csvRows (text : Str) : Except PyErr (List (List Str)) := csvRun .record [] [] text

end Verif.Py
