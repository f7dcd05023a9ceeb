import Verif.Model.ExportText
/-
convert.py json2csv: what is printed until the end or an exception.
-/
namespace RKSV

section
variable [PyEnv]

/-- The rows of receipts (librksv/depexport.py:254-255). -/
def csvRows : List (Receipt × Str) → Printed
  | [] => ([], none)
  | r :: rs =>
    match r.1.toCSV r.2 with
    | .error e => ([], some e)
    | .ok row => Printed.andThen ('\n' :: row, none) (csvRows rs)

/-- `convert.py json2csv` (convert.py:44-49, 57-59) with `CSVExporter.export` (librksv/depexport.py:251-256): the header is
printed before anything is read, the rows of a group before the next group is read. -/
def json2csvPrinted (chunksize : Nat) (doc : Json) : Printed :=
  let r := adaptPrefix (certlessParse doc chunksize).chunks.flatten
  Printed.andThen (csvHeader, none)
    (Printed.andThen (csvRows (r.1.flatMap (·.recs)))
      (match r.2.or (certlessParse doc chunksize).err with
       | some e => ([], some e)
       | none => (c!"\n", none)))

end

end RKSV
