import Verif.Model.Bam
import Verif.Model.Basic
import Verif.Model.Block
import Verif.Model.Cdisk
import Verif.Model.Chain
import Verif.Model.Directory
import Verif.Model.Disk
import Verif.Model.Display
import Verif.Model.Error
import Verif.Model.Export
import Verif.Model.File
import Verif.Model.Geos
import Verif.Model.Host
import Verif.Model.Petscii
import Verif.Model.Session
import Verif.Model.Sprite
import Verif.Model.Tables
import Verif.Model.Util
import Verif.Model.Validation
import Verif.Model.Writer
import Verif.Spec.Bam
import Verif.Spec.Blocks
import Verif.Spec.Bystander
import Verif.Spec.Cdisk
import Verif.Spec.Chain
import Verif.Spec.CleanReopen
import Verif.Spec.CleanWrite
import Verif.Spec.Commands
import Verif.Spec.Crash
import Verif.Spec.Details
import Verif.Spec.Display
import Verif.Spec.Dump
import Verif.Spec.Durable
import Verif.Spec.Errors
import Verif.Spec.Footprint
import Verif.Spec.Format
import Verif.Spec.Geos
import Verif.Spec.Header
import Verif.Spec.Host
import Verif.Spec.Images
import Verif.Spec.Info
import Verif.Spec.Interleave
import Verif.Spec.Layout
import Verif.Spec.Observe
import Verif.Spec.Ops
import Verif.Spec.Placement
import Verif.Spec.Policy
import Verif.Spec.Ready
import Verif.Spec.Records
import Verif.Spec.Relative
import Verif.Spec.Rename
import Verif.Spec.Report
import Verif.Spec.Robust
import Verif.Spec.Slots
import Verif.Spec.Special
import Verif.Spec.Store
import Verif.Spec.Territory
import Verif.Spec.Text
import Verif.Spec.Tool
import Verif.Spec.Validate
import Verif.Spec.Volume
import Verif.Lemmas.Alloc
import Verif.Lemmas.AllocSeq
import Verif.Lemmas.Append
import Verif.Lemmas.Bam
import Verif.Lemmas.BamEdit
import Verif.Lemmas.BamFlush
import Verif.Lemmas.BamKeeps
import Verif.Lemmas.Bits
import Verif.Lemmas.Bystander
import Verif.Lemmas.Cells
import Verif.Lemmas.Chain
import Verif.Lemmas.Commands
import Verif.Lemmas.Crash
import Verif.Lemmas.Device
import Verif.Lemmas.DirAlloc
import Verif.Lemmas.DirExtend
import Verif.Lemmas.DirFacts
import Verif.Lemmas.DirSlots
import Verif.Lemmas.DiskOps
import Verif.Lemmas.Display
import Verif.Lemmas.Durable
import Verif.Lemmas.Entry
import Verif.Lemmas.Fence
import Verif.Lemmas.FileFacts
import Verif.Lemmas.Footprint
import Verif.Lemmas.FootprintDisk
import Verif.Lemmas.FootprintOps
import Verif.Lemmas.Format
import Verif.Lemmas.Frozen
import Verif.Lemmas.Geos
import Verif.Lemmas.Header
import Verif.Lemmas.Hex
import Verif.Lemmas.Info
import Verif.Lemmas.Inked
import Verif.Lemmas.Interleave
import Verif.Lemmas.Keeps
import Verif.Lemmas.Layout
import Verif.Lemmas.List
import Verif.Lemmas.Listed
import Verif.Lemmas.Listing
import Verif.Lemmas.M
import Verif.Lemmas.Observe
import Verif.Lemmas.Open
import Verif.Lemmas.Ops
import Verif.Lemmas.Puts
import Verif.Lemmas.Reader
import Verif.Lemmas.Relative
import Verif.Lemmas.Reopen
import Verif.Lemmas.Rep
import Verif.Lemmas.Report
import Verif.Lemmas.Safe
import Verif.Lemmas.SafeCreate
import Verif.Lemmas.SafeDisk
import Verif.Lemmas.SafeTool
import Verif.Lemmas.SafeWriter
import Verif.Lemmas.Says
import Verif.Lemmas.Settled
import Verif.Lemmas.Sim
import Verif.Lemmas.Slice
import Verif.Lemmas.Slot
import Verif.Lemmas.Sort
import Verif.Lemmas.Space
import Verif.Lemmas.Special
import Verif.Lemmas.Stale
import Verif.Lemmas.Standing
import Verif.Lemmas.Start
import Verif.Lemmas.Steps
import Verif.Lemmas.StoreFacts
import Verif.Lemmas.Tactic
import Verif.Lemmas.Tail
import Verif.Lemmas.Text
import Verif.Lemmas.Validate
import Verif.Lemmas.ValidateReady
import Verif.Lemmas.VolOps
import Verif.Lemmas.Volume
import Verif.Lemmas.Write
import Verif.Lemmas.WriteLoop
import Verif.Props.Alloc
import Verif.Props.Bam
import Verif.Props.Bystander
import Verif.Props.BystanderRelative
import Verif.Props.Capacity
import Verif.Props.Cdisk
import Verif.Props.Chain
import Verif.Props.CleanCreate
import Verif.Props.CleanDelete
import Verif.Props.CleanReopen
import Verif.Props.CleanWrite
import Verif.Props.Codec
import Verif.Props.Commands
import Verif.Props.Crash
import Verif.Props.Details
import Verif.Props.Device
import Verif.Props.Directory
import Verif.Props.Display
import Verif.Props.Dump
import Verif.Props.Durable
import Verif.Props.EditCommand
import Verif.Props.Export
import Verif.Props.Files
import Verif.Props.Footprint
import Verif.Props.Format
import Verif.Props.Geos
import Verif.Props.Growth
import Verif.Props.Hazards
import Verif.Props.Host
import Verif.Props.Info
import Verif.Props.Interleave
import Verif.Props.Listing
import Verif.Props.Names
import Verif.Props.Open
import Verif.Props.Placement
import Verif.Props.Policy
import Verif.Props.Records
import Verif.Props.Relative
import Verif.Props.RelativeNew
import Verif.Props.Rename
import Verif.Props.Report
import Verif.Props.Robust
import Verif.Props.Safe
import Verif.Props.Shared
import Verif.Props.Special
import Verif.Props.Store
import Verif.Props.Territory
import Verif.Props.Text
import Verif.Props.Tool
import Verif.Props.Validate
