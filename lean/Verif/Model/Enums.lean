import Verif.Base.Py

/-!
Model of the enumerations of `mt_metadata/common/enumerations.py` and of every class derived from
`StrEnumerationBase`.

Simplifications: strings are lists of characters and `lower` maps the ASCII letters (Python also maps
the other letters; no member has one). A `ValidationError` is `valueError`. A member is identified with its value (Python makes
two members of one class with the same value the same object).
-/

namespace Verif.Enums

/-- `str.lower` (enumerations.py L41) -/
def lower (s : Str) : Str := s.map Char.toLower

/-- What a field may be given: a member of the class itself, `None`, a string, anything else. -/
inductive In where
  | member (m : Str)
  | none
  | str (s : Str)
  | other
  deriving DecidableEq

/-- enumerations.py L39-L42: the first member equal to the string up to case. -/
def findMember : List Str → Str → Option Str
  | [], _ => .none
  | m :: ms, v => if lower v = lower m then some m else findMember ms v

/-- enumerations.py L25-L48 `_normalize_case`; the result is a member or `None`. -/
def normalizeCase (ms : List Str) : In → Except PyErr (Option Str)
  | .member m => .ok (some m)
  | .none => .ok Option.none
  | .other => .error .typeError
  | .str v =>
    match findMember ms v with
    | some m => .ok (some m)
    | Option.none => .error .valueError

/-- enumerations.py L14-L22: the pydantic schema runs `_normalize_case` and then the enum schema, which
takes members only. -/
def validate (ms : List Str) (v : In) : Except PyErr Str :=
  match normalizeCase ms v with
  | .error e => .error e
  | .ok (some m) => if m ∈ ms then .ok m else .error .valueError
  | .ok Option.none => .error .valueError

/-- The part of a string before the first `-` (`value.split("-")[0]`). -/
def beforeDash : Str → Str
  | [] => []
  | c :: s => if c = '-' then [] else c :: beforeDash s

/-- enumerations.py L131-L139 -/
def geoModels : List Str := ["EMAG2", "EMM", "HDGM", "IGRF", "WMM", "unknown"].map String.toList

/-- enumerations.py L147-L155 `GeomagneticModelEnum._validate_lowercase`: the plain validator returns the
given string. -/
def geoValidate : In → Except PyErr Str
  | .str v => if beforeDash (lower v) ∈ geoModels.map lower then .ok v else .error .valueError
  | .member m => if beforeDash (lower m) ∈ geoModels.map lower then .ok m else .error .valueError
  | .none => .error .typeError
  | .other => .error .typeError

/-- Every class derived from `StrEnumerationBase` with its values, read off the source: file, class and
lines are given in the comment of each row. -/
def codeEnums : List (String × List String) := [
  -- common/band.py L29-L31
  ("CenterAveragingTypeEnum", ["arithmetic", "geometric"]),
  -- common/band.py L34-L37
  ("ClosedEnum", ["left", "right", "both"]),
  -- common/enumerations.py L51-L53
  ("YesNoEnum", ["yes", "no"]),
  -- common/enumerations.py L56-L71
  ("DataTypeEnum", ["RMT", "AMT", "BBMT", "LPMT", "ULPMT", "MT", "LP", "BB", "WB", "MT_TF", "BBMT_TF", "WBMT_TF", "LPMT_TF", "CSAMT", "NSAMT"]),
  -- common/enumerations.py L98-L101
  ("ChannelLayoutEnum", ["L", "X", "+"]),
  -- common/enumerations.py L104-L109
  ("ElectrodeLocationEnum", ["N", "S", "E", "W", ""]),
  -- common/enumerations.py L112-L115
  ("OrientationMethodEnum", ["compass", "GPS", "theodolite"]),
  -- common/enumerations.py L118-L122
  ("GeographicReferenceFrameEnum", ["geographic", "geomagnetic", "station", "sitelayout"]),
  -- common/enumerations.py L125-L128
  ("ChannelOrientationEnum", ["orthogonal", "station", "sitelayout"]),
  -- common/enumerations.py L159-L164
  ("FilterTypeEnum", ["fap", "zpk", "time_delay", "coefficient", "fir"]),
  -- common/enumerations.py L167-L170
  ("SymmetryEnum", ["NONE", "ODD", "EVEN"]),
  -- common/enumerations.py L190-L196
  ("ReleaseStatusEnum", ["Unrestricted Release", "Restricted Release", "Paper Citation Required", "Academic Use Only", "Conditions Apply", "Data Citation Required"]),
  -- common/enumerations.py L199-L205
  ("ChannelEnum", ["ex", "ey", "hx", "hy", "hz", ""]),
  -- features/coherence.py L99-L101
  ("DetrendEnum", ["linear", "constant"]),
  -- features/fc_coherence.py L15-L18
  ("BandDefinitionTypeEnum", ["Q", "fractional bandwidth", "user defined"]),
  -- features/fc_coherence.py L21-L23
  ("QRadiusEnum", ["constant Q", "user defined"]),
  -- features/feature.py L16-L21
  ("DomainEnum", ["time", "frequency", "fc", "ts", "fourier"]),
  -- features/feature_weighting_window.py L14-L16
  ("ThresholdEnum", ["low cut", "high cut"]),
  -- features/feature_weighting_window.py L19-L22
  ("HalfWindowStyleEnum", ["hamming", "hann", "rectangle"]),
  -- features/weight_kernel.py L14-L16
  ("ThresholdEnum", ["low cut", "high cut"]),
  -- features/weight_kernel.py L19-L22
  ("HalfWindowStyleEnum", ["hamming", "hann", "rectangle"]),
  -- features/weights/base.py L13-L17
  ("WeightTypeEnum", ["monotonic", "learned", "spatial", "custom"]),
  -- features/weights/channel_weight_spec.py L75-L79
  ("CombinationStyleEnum", ["multiplication", "minimum", "maximum", "mean"]),
  -- features/weights/monotonic_weight_kernel.py L15-L17
  ("ThresholdEnum", ["low cut", "high cut"]),
  -- features/weights/monotonic_weight_kernel.py L20-L22
  ("StyleEnum", ["taper", "activation"]),
  -- features/weights/taper_monotonic_weight_kernel.py L15-L19
  ("HalfWindowStyleEnum", ["hamming", "hann", "rectangle", "blackman"]),
  -- features/weights/taper_monotonic_weight_kernel.py L22-L28
  ("ActivationStyleEnum", ["linear", "sigmoid", "tanh", "relu", "hard_tanh", "hard_sigmoid"]),
  -- processing/aurora/channel_nomenclature.py L14-L19
  ("ExEnum", ["ex", "e1", "e2", "e3", "e4"]),
  -- processing/aurora/channel_nomenclature.py L22-L27
  ("EyEnum", ["ey", "e1", "e2", "e3", "e4"]),
  -- processing/aurora/channel_nomenclature.py L30-L35
  ("HxEnum", ["bx", "hx", "h1", "h2", "h3"]),
  -- processing/aurora/channel_nomenclature.py L38-L43
  ("HyEnum", ["by", "hy", "h1", "h2", "h3"]),
  -- processing/aurora/channel_nomenclature.py L46-L51
  ("HzEnum", ["bz", "hz", "h1", "h2", "h3"]),
  -- processing/aurora/channel_nomenclature.py L54-L59
  ("SupportedNomenclatureEnum", ["default", "lemi12", "lemi34", "musgraves", "phoenix123"]),
  -- processing/aurora/decimation_level.py L32-L34
  ("SaveFcsTypeEnum", ["h5", "csv"]),
  -- processing/aurora/estimator.py L13-L16
  ("EngineEnum", ["RME_RR", "RME", "other"]),
  -- processing/aurora/processing.py L18-L20
  ("BandSpecificationStyleEnum", ["EMTF", "band_edges"]),
  -- processing/fourier_coefficients/fc.py L19-L22
  ("MethodEnum", ["fft", "wavelet", "other"]),
  -- processing/short_time_fourier_transform.py L14-L17
  ("MethodEnum", ["fft", "wavelet", "other"]),
  -- processing/short_time_fourier_transform.py L20-L23
  ("PerWindowDetrendTypeEnum", ["linear", "constant", ""]),
  -- processing/short_time_fourier_transform.py L26-L29
  ("PreFftDetrendTypeEnum", ["linear", "other", ""]),
  -- processing/short_time_fourier_transform.py L32-L34
  ("PrewhiteningTypeEnum", ["first difference", "other"]),
  -- processing/time_series_decimation.py L13-L15
  ("MethodEnum", ["default", "other"]),
  -- processing/window.py L22-L40
  ("TypeEnum", ["boxcar", "triang", "blackman", "hamming", "hann", "bartlett", "flattop", "parzen", "bohman", "blackmanharris", "nuttall", "barthann", "kaiser", "gaussian", "general_gaussian", "slepian", "chebwin", "dpss"]),
  -- processing/window.py L43-L46
  ("ClockZeroTypeEnum", ["user specified", "data start", "ignore"]),
  -- transfer_functions/io/zonge/metadata/tx.py L13-L15
  ("TypeEnum", ["natural", "controlled source"])
]

/-- The member lists of the classes above. -/
def codeMembers : List (List Str) := codeEnums.map (fun p => p.2.map String.toList)

end Verif.Enums
