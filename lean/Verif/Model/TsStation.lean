import Verif.Model.Metadata

/-! # Station metadata of a transfer function and of time series

`mt_metadata/transfer_functions/core.py` L1630-L1645 `to_ts_station_metadata`, L1647-L1658 `from_ts_station_metadata`, with `to_dict` of
`Model/Metadata` and `base/metadata.py` L146-L187 `update_attribute`.

Simplifications: those of `Model/Metadata`; so runs and comments with an author are left out, and a value that a field holds is taken as it is.
Both classes have the same fields but for those of `transfer_function` (`tf/station.py` L14-L27), so no assignment raises. -/

namespace Verif.TsStation
open Verif.Metadata

/-- base/metadata.py L168-L187 `update_attribute` for each item of a dictionary. -/
def assignAll (o d : Obj) : Obj := d.foldl (fun acc p => OD.set acc p.1 p.2) o

/-- core.py L1637-L1645: `fresh` is `TSStation()`. -/
def toTs (fields : List String) (fresh tf : Obj) : Obj :=
  assignAll fresh ((toDict fields true tf).filter (fun p => !substring "transfer_function".toList p.1.toList))

/-- core.py L1654-L1658: into the station metadata that are there. -/
def fromTs (fields : List String) (tf ts : Obj) : Obj := assignAll tf (toDict fields true ts)

end Verif.TsStation
