import Verif.Props.Time
import Verif.Props.Tone
import Verif.Props.Pitch
import Verif.Props.Status
import Verif.Props.Buffer
import Verif.Props.BufferRead
import Verif.Props.Slide
import Verif.Props.Osc
import Verif.Props.Sequence
import Verif.Props.Envelope
import Verif.Props.Adsr
import Verif.Props.SeqCopy
import Verif.Props.BufferSize
import Verif.Props.Links
import Verif.Props.Divider
import Verif.Props.Instrument
import Verif.Props.Unit
import Verif.Props.Noise
import Verif.Props.UnitAttr
import Verif.Props.Sample
import Verif.Props.Clock
import Verif.Props.Context
import Verif.Props.World
import Verif.Props.TrackTick
import Verif.Props.TrackArp
import Verif.Props.TrackMix
import Verif.Props.TrackNote
import Verif.Props.TrackClear
import Verif.Props.Object
import Verif.Props.Normalize
import Verif.Props.Convert
import Verif.Props.Wave
import Verif.Props.WaveSafe
import Verif.Props.WaveChunks
import Verif.Props.DataState
import Verif.Props.DataMem
import Verif.Spec.TrackSafe
import Verif.Lemmas.UnitSafe
import Verif.Lemmas.Near
import Verif.Lemmas.WorldSafe
import Verif.Lemmas.TrackSafe
import Verif.Lemmas.TrackSafe2
import Verif.Lemmas.TrackSafe3
import Verif.Lemmas.TrackSafe4
import Verif.Props.TrackSafe
import Verif.Props.TrackReach
import Verif.Spec.Current
import Verif.Lemmas.TrackPan
import Verif.Lemmas.Current
import Verif.Lemmas.Current2
import Verif.Lemmas.Current3
import Verif.Lemmas.Current4
import Verif.Lemmas.Current5
import Verif.Props.Current
import Verif.Model.Band
import Verif.Spec.Song
import Verif.Lemmas.Band
import Verif.Lemmas.Song
import Verif.Props.Song
import Verif.Lemmas.Moved
import Verif.Lemmas.MovedWorld
import Verif.Lemmas.Refine
import Verif.Lemmas.Refine2
import Verif.Props.SongTracks
import Verif.Spec.Sound
import Verif.Lemmas.Script
import Verif.Lemmas.Mixed
import Verif.Lemmas.Loose
import Verif.Lemmas.Sound
import Verif.Props.SongSound
import Verif.Spec.Score
import Verif.Lemmas.Score
import Verif.Lemmas.Score2
import Verif.Lemmas.Concert
import Verif.Props.Score
import Verif.Model.GenTo
import Verif.Props.GenTo
import Verif.Model.Copy
import Verif.Props.Copy
import Verif.Spec.Held
import Verif.Lemmas.Train
import Verif.Props.Note
import Verif.Model.DataAttr
import Verif.Spec.DataAttr
import Verif.Props.DataAttr
import Verif.Model.Reduce
import Verif.Spec.Reduce
import Verif.Props.Reduce
import Verif.Model.Tempo
import Verif.Spec.Tempo
import Verif.Props.Tempo
import Verif.Spec.Fade
import Verif.Lemmas.Fade
import Verif.Props.Fade
import Verif.Model.SeqPlay
import Verif.Spec.SeqPlay
import Verif.Lemmas.SeqPlay
import Verif.Props.SeqPlay
import Verif.Props.SongDetach
import Verif.Spec.Stems
import Verif.Lemmas.Stems
import Verif.Lemmas.Stems2
import Verif.Lemmas.Stems3
import Verif.Lemmas.Mixdown
import Verif.Props.Stems
import Verif.Model.Load
import Verif.Spec.Load
import Verif.Props.Load
import Verif.Spec.Played
import Verif.Lemmas.Played
import Verif.Props.Played
import Verif.Model.TrackPtr
import Verif.Spec.ReadBack
import Verif.Lemmas.ReadBack
import Verif.Lemmas.ReadBackInstr
import Verif.Props.ReadBack
import Verif.Lemmas.ReadBackSample
import Verif.Model.TrackData
import Verif.Spec.FollowData
import Verif.Lemmas.FollowData
import Verif.Lemmas.FollowData2
import Verif.Props.FollowData
import Verif.Model.Seconds
import Verif.Spec.Seconds
import Verif.Lemmas.Seconds
import Verif.Lemmas.Seconds2
import Verif.Lemmas.Seconds3
import Verif.Props.Seconds
import Verif.Lemmas.Train2
import Verif.Props.Note2
import Verif.Spec.Tape
import Verif.Lemmas.Tape
import Verif.Lemmas.Tape2
import Verif.Props.Tape
import Verif.Props.TapeHold
import Verif.Spec.Swing
import Verif.Lemmas.Swing
import Verif.Props.Swing
import Verif.Spec.Sweep
import Verif.Lemmas.Sweep
import Verif.Props.Sweep
import Verif.Spec.AllFx
import Verif.Lemmas.AllFx
import Verif.Props.AllFx
import Verif.Spec.ArpHeard
import Verif.Lemmas.AllFx2
import Verif.Lemmas.ArpHeard
import Verif.Props.ArpHeard
import Verif.Spec.InstrHeard
import Verif.Lemmas.InstrHeard
import Verif.Props.InstrHeard
import Verif.Spec.Line
import Verif.Lemmas.Line
import Verif.Spec.AdsrHeard
import Verif.Spec.Within
import Verif.Props.AdsrHeard
import Verif.Props.Within
import Verif.Props.AdsrMixed
import Verif.Spec.ArpInstr
import Verif.Lemmas.ArpInstr
import Verif.Props.ArpInstr
import Verif.Spec.Legato
import Verif.Lemmas.Legato
import Verif.Props.Legato
import Verif.Props.MonoHeard
import Verif.Props.LegatoArp
import Verif.Spec.Phrases
import Verif.Lemmas.Phrases
import Verif.Props.Phrases
