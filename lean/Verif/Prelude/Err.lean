/-!
# Exceptions as values
Python exceptions raised by the modelled code, one constructor per exception class.
Messages are not modelled.
-/
namespace Surfalize

/-- Exception classes raised by surfalize or by the runtime on its behalf
(surfalize/exceptions.py:1-36 and Python builtins). -/
inductive Err where
  | valueError
  | typeError
  | indexError
  | keyError
  | zeroDivision
  | attributeError
  | unboundLocal
  | recursion
  | structError
  | eof
  | calculation      -- surfalize.exceptions.CalculationError
  | fitting          -- surfalize.exceptions.FittingError
  | batch            -- surfalize.exceptions.BatchError
  | parsing          -- surfalize.exceptions.ParsingError
  | fileFormat       -- surfalize.exceptions.FileFormatError
  | corrupted        -- surfalize.exceptions.CorruptedFileError
  | unsupported      -- surfalize.exceptions.UnsupportedFileFormatError
  | linAlg           -- numpy.linalg.LinAlgError
  | usage            -- click.BadParameter
  | overflow         -- OverflowError
  | unicode          -- UnicodeDecodeError / UnicodeEncodeError
  | readOnly         -- writing to a read-only numpy view (ValueError subclass in numpy)
  | osError          -- OSError (IsADirectoryError)
  | regex            -- re.error
  deriving DecidableEq, Repr

end Surfalize
