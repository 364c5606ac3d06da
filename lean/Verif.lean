import Verif.Props.Diagnostic
import Verif.Props.Validate
import Verif.Props.Datapath
import Verif.Props.Steps
import Verif.Props.Interp
import Verif.Props.CyclesInterp
import Verif.Props.DiagInterp
import Verif.Props.SummaryFull
import Verif.Props.CoreFeatures
import Verif.Props.DeltaQ
import Verif.Props.Summary
import Verif.Props.Segments
import Verif.Props.MaccorQuantity
import Verif.Props.CycleRules
import Verif.Props.Units
import Verif.Props.MtbSteps
import Verif.Props.MtbPartition
import Verif.Props.MtbSeqs
import Verif.Props.BiologicToMaccor
import Verif.Props.MaccorToArbin
import Verif.Props.Dash
import Verif.Props.ArbinFile
import Verif.Props.ArbinRun
import Verif.Props.Schedule
import Verif.Props.FixedWidth
import Verif.Props.MaccorProcedure
import Verif.Props.Waveform
import Verif.Props.Parsers
import Verif.Props.Novonix
import Verif.Props.RawUnits
import Verif.Props.ArbinShell
import Verif.Props.Growth
import Verif.Props.RetriggerArgs
import Verif.Props.SpliceFile
import Verif.Props.StatusMeta
import Verif.Props.MatrixFile
import Verif.Props.IndigoTable
import Verif.Props.LoadCasts
import Verif.Props.ExitMore
import Verif.Props.ExitStatus
import Verif.Props.SharedMatrix
import Verif.Props.Reorder
import Verif.Props.Shared
import Verif.Props.InterpTies
import Verif.Props.Running
import Verif.Props.Rerun
import Verif.Props.JsonText
import Verif.Props.Metamorphic
import Verif.Props.BtmRuns
import Verif.Props.BiologicTime
import Verif.Props.SpliceMany
import Verif.Props.LoopRuns
import Verif.Props.MaccorRun
import Verif.Props.DatapathId
import Verif.Props.Retrigger
import Verif.Props.AutoLoad
import Verif.Props.InterpSym
import Verif.Props.RoundTrip
import Verif.Props.IntracellV1Smooth
import Verif.Props.Features
import Verif.Model.Table
import Verif.Model.Splitter
import Verif.Model.LinearModel
import Verif.Spec.Splitter
import Verif.Spec.LinearModel
import Verif.Proof.Table
import Verif.Proof.Splitter
import Verif.Proof.LinearModel
import Verif.Props.Splitter
import Verif.Props.Unseen
import Verif.Props.LinearModel
import Verif.Model.Routing
import Verif.Model.Batch
import Verif.Model.Generate
import Verif.Model.StepRoles
import Verif.Spec.Routing
import Verif.Spec.Batch
import Verif.Spec.Generate
import Verif.Spec.StepRoles
import Verif.Proof.Routing
import Verif.Proof.Batch
import Verif.Proof.Generate
import Verif.Proof.StepRoles
import Verif.Props.Routing
import Verif.Props.Batch
import Verif.Props.Generate
import Verif.Props.StepRoles
import Verif.Spec.CycleCount
import Verif.Proof.CycleCount
import Verif.Proof.CycleRun
import Verif.Proof.CycleFlat
import Verif.Props.CycleCount
import Verif.Model.Featurize
import Verif.Spec.Featurize
import Verif.Proof.Featurize
import Verif.Props.Featurize
import Verif.Spec.Inserted
import Verif.Proof.Inserted
import Verif.Props.Inserted
import Verif.Props.BtmConditions
import Verif.Props.Prediction
import Verif.Props.ChargeWave
import Verif.Props.Accepted
import Verif.Props.MtbContent
import Verif.Props.Degradation
import Verif.Props.Threshold
import Verif.Props.Exclusion
import Verif.Props.Ingest
import Verif.Props.Transfer
import Verif.Props.Hppc
import Verif.Props.RawImage
import Verif.Props.Intracell
import Verif.Props.IntracellFeatures
import Verif.Props.TrainCmd
import Verif.Props.ProtocolCmd
import Verif.Props.RunParameters
import Verif.Props.WaveProcedure
import Verif.Props.FastCharge
import Verif.Props.BiologicFile
import Verif.Props.Construct
import Verif.Props.BiologicMeta
import Verif.Props.Pca
import Verif.Props.Eis
import Verif.Props.IntracellFit
import Verif.Props.IntracellSlopes
import Verif.Props.Settings
import Verif.Props.MpsFile
import Verif.Props.IntracellV1
import Verif.Props.IntracellV1Error
import Verif.Props.IntracellV1Slopes
import Verif.Props.Casts
