import Verif.Corpus.Formatter
import Verif.Engine.Model
import Verif.Engine.Lemmas
import Verif.Engine.Props
import Verif.Py.Dict
import Verif.Py.Sort
import Verif.Vocab.Model
import Verif.Vocab.Lemmas
import Verif.Vocab.Plain
import Verif.Vocab.PlainLemmas
import Verif.Vocab.Props
import Verif.Vocab.Frame
import Verif.Vocab.PropsLaws
import Verif.Window.Model
import Verif.Window.Lemmas
import Verif.Window.Count
import Verif.Window.Props
import Verif.Matrix.Sparse
import Verif.Matrix.Model
import Verif.Matrix.Lemmas
import Verif.Matrix.Named
import Verif.Matrix.Props
import Verif.Matrix.PropsSelect
import Verif.Matrix.PropsDense
import Verif.Matrix.PropsArchive
import Verif.Matrix.PropsFilter
import Verif.Matrix.PropsToken
import Verif.Matrix.PropsMerge
import Verif.Matrix.Store
import Verif.Matrix.PropsStore
import Verif.Matrix.Query
import Verif.Matrix.PropsQuery
import Verif.Matrix.Access
import Verif.Matrix.PropsAccess
import Verif.Matrix.PropsShow
import Verif.Matrix.Ops
import Verif.Matrix.PropsOps
import Verif.Matrix.Cache
import Verif.Matrix.PropsCache
import Verif.Matrix.PropsLaws
import Verif.Engine.Accumulate
import Verif.Cooc.Model
import Verif.Cooc.Props
import Verif.Cooc.PropsLaws
import Verif.Cooc.PropsBounds
import Verif.Assoc.Measures
import Verif.Assoc.PropsMeasures
import Verif.Assoc.Weights
import Verif.Assoc.PropsWeights
import Verif.Assoc.PropsLaws
import Verif.Assoc.PropsVecLaws
import Verif.Assoc.PropsVectors
import Verif.Assoc.Distance
import Verif.Assoc.PropsDistance
import Verif.Assoc.PropsSums
import Verif.Assoc.PropsTextbook
import Verif.Assoc.PropsNamed
import Verif.Dep.Graph
import Verif.Dep.Lemmas
import Verif.Dep.PropsTree
import Verif.Dep.Match
import Verif.Dep.MatchLemmas
import Verif.Dep.PropsMatch
import Verif.Dep.Feature
import Verif.Dep.PropsFeature
import Verif.Dep.PropsRecord
import Verif.Dep.PropsTarget
import Verif.Dep.Sentence
import Verif.Dep.PropsSentence
import Verif.Dep.PropsGraph
import Verif.Dep.PropsFile
import Verif.Dep.DepRel
import Verif.Dep.PropsDepRel
import Verif.Dep.Pattern
import Verif.Dep.PropsPattern
import Verif.Dep.Readers
import Verif.Dep.PropsReaders
import Verif.Dep.PropsMacros
import Verif.Dep.Basic
import Verif.Dep.PropsBasic
import Verif.Dep.PropsBasicTarget
import Verif.Dep.PropsBasicRead
import Verif.Dep.PropsConds
import Verif.Dep.RawGraph
import Verif.Dep.PropsRawGraph
import Verif.Cbc.Condensed
import Verif.Cbc.PropsCondensed
import Verif.Cbc.Merge
import Verif.Cbc.PropsMerge
import Verif.Cbc.Clean
import Verif.Cbc.PropsClean
import Verif.Cbc.PropsLost
import Verif.Cbc.Step1
import Verif.Cbc.PropsStep1
import Verif.Cbc.Rounds
import Verif.Cbc.PropsRounds
import Verif.Cbc.PropsCommittee
import Verif.Cbc.Vector
import Verif.Cbc.PropsVector
import Verif.Setup.Config
import Verif.Setup.PropsConfig
import Verif.Setup.Paths
import Verif.Setup.PropsPaths
import Verif.Setup.SaveLoad
import Verif.Setup.PropsSave
import Verif.Setup.PropsLoad
import Verif.Items.Text
import Verif.Items.Formatter
import Verif.Items.PropsFormatter
import Verif.Items.Nodes
import Verif.Items.NodeLemmas
import Verif.Items.PropsNodes
import Verif.Front.Queries
import Verif.Front.PropsQueries
import Verif.Front.Vocab
import Verif.Front.PropsVocab
import Verif.Front.Tokens
import Verif.Front.PropsTokens
import Verif.Front.PropsWeights
import Verif.Flow.Fit
import Verif.Flow.PropsFit
import Verif.Flow.Retrieve
import Verif.Flow.Sim
import Verif.Flow.RetrieveLemmas
import Verif.Flow.PropsRetrieve
import Verif.Flow.PropsNearest
import Verif.Flow.PropsLaws
import Verif.Flow.TypeToken
import Verif.Flow.PropsTypeToken
import Verif.Flow.Colloc
import Verif.Flow.PropsColloc
import Verif.Flow.TokenVec
import Verif.Flow.PropsTokenVec
import Verif.Matrix.Csv
import Verif.Matrix.PropsCsv
import Verif.Dep.Manager
import Verif.Dep.PropsManager
import Verif.Setup.PropsFiles
import Verif.Vocab.PropsPlain
import Verif.Dep.Threads
import Verif.Dep.PropsThreads
import Verif.Flow.PropsSound
import Verif.Vocab.Json
import Verif.Vocab.PropsJson
import Verif.Cooc.PropsMachines
import Verif.Cbc.Old
import Verif.Cbc.PropsOld
import Verif.Cbc.PropsSimilar
import Verif.Vocab.PropsJsonRead
import Verif.Matrix.PropsExact
import Verif.Cbc.PropsNear
import Verif.Cooc.PropsCoarse
import Verif.Cooc.PropsMirror
import Verif.Vocab.Files
import Verif.Vocab.PropsFiles
import Verif.Dep.PropsLinear
import Verif.Matrix.PropsZero
import Verif.Matrix.PropsRanks
import Verif.Dep.PropsAdd
import Verif.Regex.Model
import Verif.Regex.Lemmas
import Verif.Regex.Columns
import Verif.Regex.Corpus
import Verif.Regex.PropsLines
import Verif.Regex.Templates
import Verif.Regex.PropsTemplates
import Verif.Regex.PropsClasses
import Verif.Regex.PropsDepText
import Verif.Regex.PropsCooc
import Verif.Regex.PropsTokenText
import Verif.Cooc.PropsTotals
import Verif.Cooc.PropsPpmi
import Verif.Flow.PropsTokenVectors
import Verif.Regex.PropsLayout
import Verif.Dep.PropsIsTree
import Verif.Dep.PropsRelation
import Verif.Regex.PropsDepMatrix
import Verif.Cbc.Init
import Verif.Cbc.PropsInit
import Verif.Regex.PropsTokenLayout
import Verif.Engine.PropsProgress
import Verif.Regex.PropsPipeline
import Verif.Regex.PropsTokenMatrix
import Verif.Items.Collocs
import Verif.Items.PropsCollocs
import Verif.Items.Getter
import Verif.Items.PropsGetter
import Verif.Matrix.Meta
import Verif.Matrix.PropsMeta
import Verif.Dep.PropsTemplates
import Verif.Regex.PropsDepTemplates
import Verif.Setup.Logging
import Verif.Setup.PropsLogging
import Verif.Flow.PropsAgain
import Verif.Cooc.PropsAgain
import Verif.Flow.PropsSameName
import Verif.Dep.PropsTokenMode
import Verif.Dep.PropsDepLaws
import Verif.Flow.PropsTokenDistance
import Verif.Regex.PropsTokenDistanceText
import Verif.Cooc.PropsSentences
import Verif.Cooc.PropsRepeat
import Verif.Cooc.PropsRename
import Verif.Cooc.PropsScale
import Verif.Cooc.PropsSides
import Verif.Flow.PropsOwnWindow
import Verif.Matrix.PropsParts
import Verif.Cooc.PropsGrand
import Verif.Assoc.PropsSigns
import Verif.Assoc.PropsGeometry
import Verif.Assoc.PropsTidy
import Verif.Assoc.PropsSubst
import Verif.Assoc.PropsColumns
import Verif.Engine.Faults
import Verif.Cooc.PropsFaults
import Verif.Dep.Templates
import Verif.Dep.PropsReadTemplates
import Verif.Cooc.TmpFiles
import Verif.Cooc.PropsTmpFiles
import Verif.Cooc.PropsWhole
import Verif.Matrix.Sharing
import Verif.Matrix.PropsSharing
import Verif.Vocab.Sharing
import Verif.Vocab.PropsSharing
import Verif.Cooc.PropsCorrect
import Verif.Assoc.PropsLargest
import Verif.Cooc.PropsLeaveOut
import Verif.Assoc.PropsNeighbours
import Verif.Cooc.PropsJoin
import Verif.Cbc.Keep
import Verif.Cbc.PropsKeep
import Verif.Setup.SaveHandle
import Verif.Setup.PropsHandle
import Verif.Cbc.Shared
import Verif.Cbc.PropsShared
import Verif.Assoc.PropsThird
import Verif.Assoc.PropsAffinity
import Verif.Assoc.Centroid
import Verif.Assoc.PropsCentroid
import Verif.Cbc.PropsSeries
import Verif.Assoc.PropsKindred
import Verif.Assoc.PropsAverage
import Verif.Dep.DepLines
import Verif.Dep.PropsDepLines
import Verif.Dep.Marks
import Verif.Dep.PropsMarks
import Verif.Assoc.PropsCentre
import Verif.Assoc.PropsInfo
import Verif.Assoc.PropsMerged
import Verif.Assoc.PropsEntropy
import Verif.Setup.Size
import Verif.Setup.PropsSize
import Verif.Setup.Names
import Verif.Setup.PropsNames
import Verif.Assoc.PropsCutOff
import Verif.Assoc.PropsFast
import Verif.Assoc.PropsFastKin
import Verif.Assoc.PropsFastRank
import Verif.Assoc.PropsSenses
import Verif.Assoc.PropsPlain
import Verif.Check.Tutorial
import Verif.Check.Formulas
import Verif.Check.UnitTests
