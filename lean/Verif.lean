import Verif.Lemmas.CacheRace
import Verif.Lemmas.CiteNetworks
import Verif.Lemmas.CiteParse
import Verif.Lemmas.CiteProfile
import Verif.Lemmas.CliSession
import Verif.Lemmas.CoNetworks
import Verif.Lemmas.Codec
import Verif.Lemmas.Collection
import Verif.Lemmas.DocsGen
import Verif.Lemmas.FileCites
import Verif.Lemmas.GraphHelpers
import Verif.Lemmas.GraphPaths
import Verif.Lemmas.J9Files
import Verif.Lemmas.Json
import Verif.Lemmas.Medline
import Verif.Lemmas.MedlineOwned
import Verif.Lemmas.MedlinePipeline
import Verif.Lemmas.MedlineSaved
import Verif.Lemmas.MergeNetworks
import Verif.Lemmas.NetworkAttrs
import Verif.Lemmas.NetworkAttrs2
import Verif.Lemmas.NetworkFiles
import Verif.Lemmas.NetworkTypes
import Verif.Lemmas.Networks
import Verif.Lemmas.Networks2
import Verif.Lemmas.Notebook
import Verif.Lemmas.OtherTables
import Verif.Lemmas.Paths
import Verif.Lemmas.Pipeline
import Verif.Lemmas.Plotting
import Verif.Lemmas.ProQuestPipeline
import Verif.Lemmas.ProgressThread
import Verif.Lemmas.Scopus
import Verif.Lemmas.ScopusExact
import Verif.Lemmas.ScopusPipeline
import Verif.Lemmas.Series
import Verif.Lemmas.Splitting
import Verif.Lemmas.Tables
import Verif.Lemmas.WhoCites
import Verif.Lemmas.Wos
import Verif.Lemmas.WosMeaning
import Verif.Lemmas.WriteFile
import Verif.Lemmas.YearDiff
import Verif.Model.Bib
import Verif.Model.BibEntry
import Verif.Model.Cache
import Verif.Model.CacheRace
import Verif.Model.Citation
import Verif.Model.CiteNetworks
import Verif.Model.CiteParse
import Verif.Model.CiteProfile
import Verif.Model.CiteText
import Verif.Model.Cli
import Verif.Model.CliRun
import Verif.Model.CliSession
import Verif.Model.CoNetworks
import Verif.Model.Collection
import Verif.Model.CollectionAdd
import Verif.Model.CollectionHeap
import Verif.Model.CollectionIds
import Verif.Model.CollectionMixed
import Verif.Model.CollectionRun
import Verif.Model.CsvGrants
import Verif.Model.Derived
import Verif.Model.Diffusion
import Verif.Model.DiffusionTables
import Verif.Model.DocsGen
import Verif.Model.ExpandCore
import Verif.Model.FileBib
import Verif.Model.FileExports
import Verif.Model.FileFrames
import Verif.Model.FileTables
import Verif.Model.Files
import Verif.Model.Gender
import Verif.Model.GenderData
import Verif.Model.GetCitations
import Verif.Model.Glimpse
import Verif.Model.GrantNetwork
import Verif.Model.Grants
import Verif.Model.GraphFiles
import Verif.Model.GraphHelpers
import Verif.Model.GraphPaths
import Verif.Model.GraphStats
import Verif.Model.J9Files
import Verif.Model.JournalDB
import Verif.Model.LocalCites
import Verif.Model.MdToNb
import Verif.Model.MdToNbFiles
import Verif.Model.Medline
import Verif.Model.MedlineFields
import Verif.Model.MedlineFrames
import Verif.Model.MedlinePipeline
import Verif.Model.MergeNetworks
import Verif.Model.NetworkAttrs
import Verif.Model.NetworkFiles
import Verif.Model.Networks
import Verif.Model.NodeInfo
import Verif.Model.Nserc
import Verif.Model.Nsf
import Verif.Model.OptionLists
import Verif.Model.OtherFields
import Verif.Model.OtherTables
import Verif.Model.Pipeline
import Verif.Model.Plotting
import Verif.Model.ProQuest
import Verif.Model.ProQuestFile
import Verif.Model.ProQuestPipeline
import Verif.Model.ProgressBar
import Verif.Model.ProgressThread
import Verif.Model.RecordAccess
import Verif.Model.RecordEq
import Verif.Model.RecordFilters
import Verif.Model.RecordHeap
import Verif.Model.RecordMapping
import Verif.Model.Rpys
import Verif.Model.Scopus
import Verif.Model.ScopusCite
import Verif.Model.ScopusDict
import Verif.Model.ScopusFrames
import Verif.Model.ScopusPipeline
import Verif.Model.ScopusWhoCites
import Verif.Model.Series
import Verif.Model.SeriesFiles
import Verif.Model.Tables
import Verif.Model.TagNames
import Verif.Model.TnetText
import Verif.Model.WhoCites
import Verif.Model.Wos
import Verif.Model.WosFields
import Verif.Model.WriteCsv
import Verif.Model.WriteFile
import Verif.Model.YearDiff
import Verif.Props.Bib
import Verif.Props.BibCoupling
import Verif.Props.BibEntry
import Verif.Props.Cache
import Verif.Props.CacheRace
import Verif.Props.CiteNetworks
import Verif.Props.CiteParse
import Verif.Props.CiteProfile
import Verif.Props.CiteText
import Verif.Props.Cli
import Verif.Props.CliReview
import Verif.Props.CliRun
import Verif.Props.CliSession
import Verif.Props.CoNetworks
import Verif.Props.Collection
import Verif.Props.CollectionAdd
import Verif.Props.CollectionHeap
import Verif.Props.CollectionIds
import Verif.Props.CollectionMixed
import Verif.Props.CommonNames
import Verif.Props.Copyright
import Verif.Props.CsvGrants
import Verif.Props.Derived
import Verif.Props.Detectors
import Verif.Props.DiffusionCount
import Verif.Props.DiffusionGraph
import Verif.Props.DiffusionTables
import Verif.Props.DocsFront
import Verif.Props.DocsGen
import Verif.Props.DocsSingle
import Verif.Props.ExpandCore
import Verif.Props.FileBib
import Verif.Props.FileExports
import Verif.Props.FileFrames
import Verif.Props.FileTables
import Verif.Props.Files
import Verif.Props.Gender
import Verif.Props.GenderData
import Verif.Props.GetCitations
import Verif.Props.Glimpse
import Verif.Props.GrantNetwork
import Verif.Props.Grants
import Verif.Props.GraphDegrees
import Verif.Props.GraphDrops
import Verif.Props.GraphFiles
import Verif.Props.GraphMerge
import Verif.Props.GraphPaths
import Verif.Props.GraphStats
import Verif.Props.GraphTnet
import Verif.Props.J9Files
import Verif.Props.JournalDB
import Verif.Props.JournalPage
import Verif.Props.LocalCites
import Verif.Props.MdToNb
import Verif.Props.Medline
import Verif.Props.MedlineFields
import Verif.Props.MedlineFrames
import Verif.Props.MedlineOwned
import Verif.Props.MedlinePipeline
import Verif.Props.MedlineSaved
import Verif.Props.MergeNetworks
import Verif.Props.NetworkAttrs
import Verif.Props.NetworkFiles
import Verif.Props.NetworkTypes
import Verif.Props.Networks
import Verif.Props.NodeInfo
import Verif.Props.Notebook
import Verif.Props.Nserc
import Verif.Props.Nsf
import Verif.Props.OptionLists
import Verif.Props.OtherFields
import Verif.Props.OtherTables
import Verif.Props.Pipeline
import Verif.Props.PipelineSaved
import Verif.Props.Plotting
import Verif.Props.ProQuest
import Verif.Props.ProQuestFile
import Verif.Props.ProQuestPipeline
import Verif.Props.ProgressBar
import Verif.Props.ProgressThread
import Verif.Props.RecordAccess
import Verif.Props.RecordAccessTables
import Verif.Props.RecordEq
import Verif.Props.RecordFilters
import Verif.Props.RecordHeap
import Verif.Props.RecordMapping
import Verif.Props.Rpys
import Verif.Props.Scopus
import Verif.Props.ScopusCite
import Verif.Props.ScopusDict
import Verif.Props.ScopusEntry
import Verif.Props.ScopusFrames
import Verif.Props.ScopusPipeline
import Verif.Props.ScopusSaved
import Verif.Props.ScopusWhoCites
import Verif.Props.Series
import Verif.Props.SeriesFiles
import Verif.Props.Tables
import Verif.Props.TagNames
import Verif.Props.TnetText
import Verif.Props.WhoCites
import Verif.Props.Words
import Verif.Props.Wos
import Verif.Props.WosDamage
import Verif.Props.WosFields
import Verif.Props.WriteCsv
import Verif.Props.WriteFile
import Verif.Props.YearDiff
import Verif.Py.Codec
import Verif.Py.Counter
import Verif.Py.Csv
import Verif.Py.CsvAll
import Verif.Py.CsvMin
import Verif.Py.Decimal
import Verif.Py.Dict
import Verif.Py.Graph
import Verif.Py.GraphEvents
import Verif.Py.Lines
import Verif.Py.MultiGraph
import Verif.Py.PSet
import Verif.Py.Path
import Verif.Py.Regex
import Verif.Py.Str
import Verif.Py.StrOps
import Verif.Spec.Bib
import Verif.Spec.BibEntry
import Verif.Spec.CacheRace
import Verif.Spec.CiteNetworks
import Verif.Spec.CiteProfile
import Verif.Spec.Cli
import Verif.Spec.CliReview
import Verif.Spec.CliRun
import Verif.Spec.CliSession
import Verif.Spec.Collection
import Verif.Spec.CollectionHeap
import Verif.Spec.CommonNames
import Verif.Spec.Copyright
import Verif.Spec.Counting
import Verif.Spec.Derived
import Verif.Spec.Diffusion
import Verif.Spec.DocsGen
import Verif.Spec.FileBib
import Verif.Spec.FileExports
import Verif.Spec.FileFrames
import Verif.Spec.FileTables
import Verif.Spec.Gender
import Verif.Spec.GenderData
import Verif.Spec.Grants
import Verif.Spec.Graphs
import Verif.Spec.J9Files
import Verif.Spec.JournalDB
import Verif.Spec.Json
import Verif.Spec.MdToNb
import Verif.Spec.Medline
import Verif.Spec.MedlineFrames
import Verif.Spec.MedlinePipeline
import Verif.Spec.MergeNetworks
import Verif.Spec.NetworkAttrs
import Verif.Spec.Networks
import Verif.Spec.Notebook
import Verif.Spec.Nserc
import Verif.Spec.OptionLists
import Verif.Spec.OtherTables
import Verif.Spec.Paths
import Verif.Spec.Pipeline
import Verif.Spec.Plotting
import Verif.Spec.ProQuest
import Verif.Spec.ProQuestFile
import Verif.Spec.ProQuestPipeline
import Verif.Spec.ProgressThread
import Verif.Spec.RecordMapping
import Verif.Spec.Scopus
import Verif.Spec.ScopusDict
import Verif.Spec.ScopusEntry
import Verif.Spec.ScopusPipeline
import Verif.Spec.ScopusWhoCites
import Verif.Spec.Splitting
import Verif.Spec.TagTable
import Verif.Spec.TnetText
import Verif.Spec.WhoCites
import Verif.Spec.Words
import Verif.Spec.Wos
import Verif.Spec.WosMeaning
import Verif.Spec.WriteCsv
import Verif.Spec.WriteFile
import Verif.Spec.YearDiff
