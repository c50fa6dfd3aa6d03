import Verif.Model.Station

/-! # Renaming channels and runs

`mt_metadata/timeseries/run.py` L830-L885 `update_channel_keys` and `station.py` L519-L540 `update_run_keys`, with
`common/list_dict.py` L304-L332, and the validators that run when another attribute is assigned (run.py L300-L316,
station.py L261-L285). Names given to channels are those the attribute holds after its own validators. -/

namespace Verif.Rename
open Verif.Runs Verif.Stations

/-- `run.channels[key].component = f key` for every channel: the channels stay under their keys. -/
def renameChannels (f : String → String) (r : Run) : Run :=
  { r with channels := r.channels.map fun p => (p.1, { p.2 with comp := f p.1 }) }

/-- list_dict.py L316-L332: every channel under its component, and the changes. -/
def updateChannelKeys (r : Run) : Run × OD String String :=
  ({ r with channels := r.channels.foldl (fun (acc : OD String Chan) p => OD.set acc p.2.comp p.2) [] },
    r.channels.foldl (fun (acc : OD String String) p => if p.1 ≠ p.2.comp then OD.set acc p.1 p.2.comp else acc) [])

/-- `station.runs[key].id = f key` for every run, and `update_run_keys()`. -/
def renameRuns (f : String → String) (s : Station) : Station :=
  { s with runs := s.runs.foldl (fun (acc : OD String Run) p => OD.set acc (f p.1) p.2) [] }

end Verif.Rename
