import Verif.Base.Bytes
import Verif.Model.LzCommon
import Verif.Model.Lz10
import Verif.Model.CodeCompression
import Verif.Spec.LZ
import Verif.Proofs.LzCommon
import Verif.Proofs.Lz10
import Verif.Proofs.CodeCompression
import Verif.Props.Lz
import Verif.Props.Fnt
import Verif.Props.Narc
import Verif.Props.Util
import Verif.Props.Bn
import Verif.Props.Color
import Verif.Props.Overlay
import Verif.Props.MainCode
import Verif.Props.SoundWave
import Verif.Props.SoundStream
import Verif.Props.Sequence
import Verif.Props.SequenceRead
import Verif.Props.SequenceArchive
import Verif.Props.SoundBank
import Verif.Props.Bmg
import Verif.Props.Graphics2D
import Verif.Props.Music
import Verif.Props.MusicLoop
import Verif.Props.Build
import Verif.Props.BnText
import Verif.Props.MusicEdit
import Verif.Props.MusicTracks
import Verif.Props.MusicMinify
import Verif.Props.InfoBlock
import Verif.Props.Texture
import Verif.Props.Rom
import Verif.Props.RomRoundTrip
import Verif.Props.RomLoad
import Verif.Props.SoundArchive
import Verif.Props.SoundArchiveLoad
import Verif.Props.SoundArchiveSave
import Verif.Props.SoundArchiveReader
import Verif.Props.Nsbmd
import Verif.Props.NoteName
import Verif.Props.FormatBn
import Verif.Props.FormatSound
import Verif.Props.FormatCode
import Verif.Props.FormatFnt
import Verif.Props.FormatNarc
import Verif.Props.FormatHeader
import Verif.Props.FormatNsbmd
import Verif.Props.FormatNsbtx
import Verif.Props.FormatSbnk
import Verif.Props.GuessInst
import Verif.Props.BankSearch
import Verif.Props.BankOrder
import Verif.Props.FormatSseq
import Verif.Props.SequencePlay
import Verif.Props.FormatBmg
import Verif.Props.FormatGraphics
import Verif.Props.LzAny
import Verif.Props.FormatMainCode
import Verif.Props.FormatRom
import Verif.Props.Crc
import Verif.Props.SequenceObject
import Verif.Props.RomCode
import Verif.Props.SoundArchiveObject
import Verif.Props.SoundArchiveObjectSave
import Verif.Props.Files
import Verif.Props.Float
import Verif.Props.LzGreedy
import Verif.Props.MusicPlay
import Verif.Spec.PyExpr
import Verif.Spec.Repr
import Verif.Model.Repr
import Verif.Model.ReprClasses
import Verif.Model.Constructors
import Verif.Proofs.PyExpr
import Verif.Proofs.ReprClasses
import Verif.Props.Repr
import Verif.Spec.ReprSound
import Verif.Model.ReprSound
import Verif.Proofs.ReprSound
import Verif.Props.ReprSound
import Verif.Spec.ReprArchive
import Verif.Model.ReprArchive
import Verif.Proofs.ReprArchive
import Verif.Props.ReprArchive
import Verif.Spec.Listing
import Verif.Model.Listing
import Verif.Proofs.Listing
import Verif.Props.Listing
import Verif.Model.EventText
import Verif.Spec.EventText
import Verif.Proofs.EventText
import Verif.Props.EventText
import Verif.Spec.LoadErrors
import Verif.Proofs.LoadErrors
import Verif.Props.LoadErrors
import Verif.Props.Reload
import Verif.Props.Nested
import Verif.Model.Image
import Verif.Spec.Image
import Verif.Proofs.Image
import Verif.Props.Image
import Verif.Model.Summary
import Verif.Spec.Summary
import Verif.Proofs.Summary
import Verif.Props.Summary
import Verif.Props.NewRom
import Verif.Props.Json
import Verif.Props.Tools
import Verif.Proofs.MinifyTwice
import Verif.Props.MinifyTwice
import Verif.Proofs.MoveTwice
import Verif.Props.MoveTwice
import Verif.Props.TrackLaws
import Verif.Model.SaveState
import Verif.Props.SaveTwice
import Verif.Proofs.MinifySave
import Verif.Props.MinifySave
import Verif.Spec.SongFile
import Verif.Proofs.SongFile
import Verif.Props.SongFile
import Verif.Props.SongArchive
import Verif.Props.MinifyArchive
import Verif.Props.ArchiveText
import Verif.Props.MusicInit
import Verif.Props.SoundTools
import Verif.Props.SequenceEdit
import Verif.Props.Programs
import Verif.Props.Numbering
import Verif.Props.Messages
import Verif.Props.RomHeader
import Verif.Props.Drawing
import Verif.Props.EditOrder
import Verif.Props.Adding
import Verif.Props.NestedOrder
import Verif.Props.SoundEdit
import Verif.Props.Renaming
import Verif.Props.Removing
import Verif.Props.Patching
import Verif.Props.Layouts
import Verif.Props.Textures
