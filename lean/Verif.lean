import Verif.Basic
import Verif.Value
import Verif.Tags
import Verif.DecEq
import Verif.Base64
import Verif.Pickler
import Verif.Unpickler
import Verif.Proofs.Base64
import Verif.Registry
import Verif.Extensions
import Verif.Props.C19
import Verif.Props.C33
import Verif.Backend
import Verif.Props.C20
import Verif.LoadClass
import Verif.Proofs.Names
import Verif.Props.C18
import Verif.Utf8
import Verif.Proofs.Utf8
import Verif.Pandas
import Verif.Numpy
import Verif.Props.C21
import Verif.Props.C22
import Verif.TagsPd
import Verif.Props.C23
import Verif.Proofs.Numpy
import Verif.Props.C35
import Verif.JsonSpec
import Verif.Proofs.PLogic
import Verif.Proofs.PExpand
import Verif.Proofs.PInv
import Verif.Proofs.PInst
import Verif.GraphSpec
import Verif.PathSpec
import Verif.Covered
import Verif.Proofs.Paths
import Verif.Supported
import Verif.Touch
import Verif.ExpandSpec
import Verif.JsonText
import Verif.Proofs.SimBase
import Verif.Proofs.SimStep
import Verif.Proofs.SimRun
import Verif.Proofs.SimEnc
import Verif.Proofs.SimCore
import Verif.Proofs.SimDict
import Verif.Sample
import Verif.Props.C07
import Verif.Props.C08
import Verif.Props.C09
import Verif.Props.C13
import Verif.Props.C14
import Verif.Readable
import Verif.Props.C29
import Verif.Props.C36
import Verif.Proofs.JsonText
import Verif.Props.C41
import Verif.Proofs.SimOpen
import Verif.Proofs.SimHandled
import Verif.Proofs.SimAttrs
import Verif.Proofs.SimBody
import Verif.Proofs.SimBodySeq
import Verif.Proofs.SimBodyDict
import Verif.Proofs.SimCtor
import Verif.Proofs.SimInst
import Verif.Proofs.SimReduce
import Verif.Proofs.SimTuple
import Verif.Proofs.SimFields
import Verif.Proofs.SimBodyState
import Verif.Proofs.SimTop
import Verif.Proofs.Term
import Verif.Proofs.TermDepth
import Verif.Props.C04
import Verif.Api
import Verif.ApiSpec
import Verif.TextSpec
import Verif.SampleGraph
import Verif.SampleTouch
import Verif.SampleProgram
import Verif.Checks
import Verif.RepoTests
import Verif.SampleRound
import Verif.Proofs.PWritable
import Verif.Proofs.UMono
import Verif.Proofs.UKinds
import Verif.TreeSpec
import Verif.DocSpec
import Verif.Proofs.UTrace
import Verif.Proofs.URaw
import Verif.Proofs.UDispatch
import Verif.Proofs.RoundTrip
import Verif.Proofs.Run
import Verif.Props.C01
import Verif.SampleCovered
import Verif.Props.C02
import Verif.Props.C12
import Verif.Props.C30
import Verif.Props.C32
import Verif.Props.C39
import Verif.Props.C40
import Verif.RefSpec
import Verif.Proofs.Post
import Verif.Proofs.PRefs
import Verif.Props.C05
import Verif.Props.C24
import Verif.Props.C25
import Verif.Readonly
import Verif.Proofs.ReadonlyInv
import Verif.Props.C26
import Verif.Props.C44
import Verif.Props.C43
import Verif.Props.C45
import Verif.Proofs.UPlain
import Verif.Props.C27
import Verif.Props.C16
import Verif.Props.C17
import Verif.Rename
import Verif.Proofs.UShift
import Verif.Proofs.UShiftRun
import Verif.Proofs.UShiftAll
import Verif.Proofs.UFresh
import Verif.Props.C10
import Verif.Props.C37
import Verif.Proofs.UTolerant
import Verif.RefDoc
import Verif.Proofs.UDenote
import Verif.Proofs.UResolve
import Verif.Props.C28
import Verif.Props.C38
import Verif.Proofs.PPlain
import Verif.Props.C06
import Verif.Props.C11
import Verif.Props.C15
import Verif.Props.C31
import Verif.Props.C03
import Verif.Props.C46
import Verif.UserSpec
import Verif.Proofs.PInterrupt
import Verif.Props.C47
import Verif.Proofs.PCongr
import Verif.Props.C48
import Verif.Props.C49
import Verif.Props.C50
import Verif.RunSpec
import Verif.Proofs.PLevel
import Verif.Handlers
import Verif.Props.C51
import Verif.Props.C52
import Verif.Iso
import Verif.Proofs.PRen
import Verif.Props.C53
import Verif.Proofs.PLimit
import Verif.Props.C54
import Verif.Session
import Verif.Props.C55
import Verif.Classes
import Verif.Props.C56
import Verif.Props.C57
import Verif.Props.C58
import Verif.PruneSpec
import Verif.Proofs.UPrune
import Verif.Props.C59
import Verif.Properties
import Verif.Proofs.PProps
import Verif.Proofs.PPropDoc
import Verif.Proofs.PPropSim
import Verif.Props.C60
import Verif.PandasTypes
import Verif.Props.C61
import Verif.Targets
import Verif.Proofs.UTargets
import Verif.Proofs.UTargetsMono
import Verif.Props.C62
import Verif.Proofs.PShift
import Verif.Props.C63
import Verif.Probe
import Verif.Proofs.PProbe
import Verif.Props.C64
import Verif.StringReduce
import Verif.Props.C65
import Verif.JsonLayout
import Verif.Proofs.JsonLayout
import Verif.Proofs.JsonRead
import Verif.Props.C66
import Verif.SortKeys
import Verif.Props.C67
import Verif.Props.C68
import Verif.Props.C69
import Verif.Props.C70
import Verif.Props.C71
import Verif.Props.C72
import Verif.Props.C73
import Verif.Props.C74
import Verif.Props.C75
import Verif.Props.C76
import Verif.Props.C77
import Verif.Props.C78
import Verif.Props.C79
import Verif.Props.C80
import Verif.Props.C81
import Verif.Props.C82
import Verif.Props.C83
import Verif.Props.C84
import Verif.Props.C85
import Verif.Props.C86
import Verif.Props.C87
import Verif.Props.C88
import Verif.Props.C89
import Verif.Props.C90
import Verif.Props.C91
import Verif.Props.C92
import Verif.Props.C93
