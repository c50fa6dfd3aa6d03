import Verif.Props.ListDict
import Verif.Props.Dicts
import Verif.Props.Xml
import Verif.Props.MTime
import Verif.Props.Band
import Verif.Props.Metadata
import Verif.Props.Run
import Verif.Props.Station
import Verif.Props.Survey
import Verif.Props.ExperimentXml
import Verif.Props.Names
import Verif.Props.Location
import Verif.Props.Units
import Verif.Props.Fdsn
import Verif.Props.Applied
import Verif.Props.Filters
import Verif.Props.PassBand
import Verif.Props.Processing
import Verif.Props.FC
import Verif.Props.FreqBands
import Verif.Props.Enums
import Verif.Props.Aurora
import Verif.Props.Weights
import Verif.Props.Comment
import Verif.Props.IoTools
import Verif.Props.XmlText
import Verif.Props.License
import Verif.Props.XmlEpochs
import Verif.Props.XmlRuns
import Verif.Props.ZmmRotate
import Verif.Props.EdiSpectra
import Verif.Props.EdiRho
import Verif.Props.EdiData
import Verif.Props.Tf
import Verif.Props.EdiBlocks
import Verif.Lemmas.Words
import Verif.Model.ZmmText
import Verif.Props.ZmmText
import Verif.Lemmas.Ints
import Verif.Model.JFile
import Verif.Props.JFile
import Verif.Model.Zonge
import Verif.Props.Zonge
import Verif.Props.ZongeText
import Verif.Model.TfMerge
import Verif.Props.TfMerge
import Verif.Model.TfConvert
import Verif.Props.TfConvert
import Verif.Model.EmtfData
import Verif.Model.EmtfRuns
import Verif.Model.EmtfStation
import Verif.Model.EmtfFile
import Verif.Model.EmtfRunFile
import Verif.Model.ExperimentDict
import Verif.Model.Rename
import Verif.Model.TfMeta
import Verif.Model.LevelBands
import Verif.Model.FilterFile
import Verif.Model.EmtfSite
import Verif.Model.EmtfBlocks
import Verif.Model.ManyFiles
import Verif.Model.XmlStation
import Verif.Model.XmlSurvey
import Verif.Model.MTimeParts
import Verif.Model.ChanFilt
import Verif.Model.Features
import Verif.Model.AttrNames
import Verif.Model.EdiGeometry
import Verif.Model.MDate
import Verif.Model.EmtfNotes
import Verif.Model.XmlSensor
import Verif.Model.NormFreq
import Verif.Model.Schema
import Verif.Model.TimeText
import Verif.Model.Nomen
import Verif.Model.EmtfRest
import Verif.Model.RunLists
import Verif.Model.ListFields
import Verif.Model.FieldCache
import Verif.Model.EmtfWrite
import Verif.Model.ZmmUse
import Verif.Model.Copies
import Verif.Model.EdiUse
import Verif.Model.AvgUse
import Verif.Model.JUse
import Verif.Model.Standards
import Verif.Model.StdFields
import Verif.Model.EdiKept
import Verif.Model.ToZmm
import Verif.Model.TsStation
import Verif.Model.RespUnits
import Verif.Model.FieldShare
import Verif.Model.WebLinks
import Verif.Model.PzNorm
import Verif.Props.EmtfData
import Verif.Props.EmtfMore
import Verif.Props.EmtfRuns
import Verif.Props.EmtfStation
import Verif.Props.EmtfFile
import Verif.Props.EmtfRunFile
import Verif.Props.ExperimentDict
import Verif.Props.Rename
import Verif.Props.TfMeta
import Verif.Props.LevelBands
import Verif.Props.FilterFile
import Verif.Props.EmtfSite
import Verif.Props.EmtfBlocks
import Verif.Props.ManyFiles
import Verif.Props.XmlStation
import Verif.Props.XmlSurvey
import Verif.Props.MTimeParts
import Verif.Props.ChanFilt
import Verif.Props.Features
import Verif.Props.AttrNames
import Verif.Props.EdiGeometry
import Verif.Props.MDate
import Verif.Props.EmtfNotes
import Verif.Props.XmlSensor
import Verif.Props.NormFreq
import Verif.Props.Schema
import Verif.Props.TimeText
import Verif.Props.Nomen
import Verif.Props.EmtfRest
import Verif.Props.RunLists
import Verif.Props.ListFields
import Verif.Props.FieldCache
import Verif.Props.EmtfWrite
import Verif.Props.ZmmUse
import Verif.Props.Copies
import Verif.Props.EdiUse
import Verif.Props.AvgUse
import Verif.Props.JUse
import Verif.Props.Standards
import Verif.Props.StdFields
import Verif.Props.EdiKept
import Verif.Props.ToZmm
import Verif.Props.TsStation
import Verif.Props.RespUnits
import Verif.Props.FieldShare
import Verif.Props.WebLinks
import Verif.Props.PzNorm
import Verif.Model.EdiMeta
import Verif.Model.EdiInfo
import Verif.Props.EdiMeta
import Verif.Props.EdiInfo
import Verif.Props.EdiInfoOther
import Verif.Model.Stages
import Verif.Props.StageUnits
import Verif.Props.Stages
import Verif.Props.StagesMore
import Verif.Model.EdiStation
import Verif.Props.EdiStation
import Verif.Props.EdiStationMore
import Verif.Props.ZongeMore
