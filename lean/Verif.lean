import Verif.Props.Ecc
import Verif.Props.Frames
import Verif.Props.Imbe
import Verif.Props.Ambe
import Verif.Props.Repeat
import Verif.Props.Process
import Verif.Props.Sound
import Verif.Props.Caches
import Verif.Props.Unvoiced
import Verif.Props.Smooth
import Verif.Props.Threads
import Verif.Props.Enhance
import Verif.Props.Predict
import Verif.Props.Voiced
import Verif.Props.Spectrum
import Verif.Props.Desync
import Verif.Props.Simd
import Verif.Props.Dump
import Verif.Props.Heap
import Verif.Props.Rate
import Verif.Props.Energy
import Verif.Props.Fft
import Verif.Props.FftVec
import Verif.Props.VecAccuracy
import Verif.Props.Nan
import Verif.Props.Tone
import Verif.Props.Finite
import Verif.Props.Accuracy
import Verif.Props.Track
import Verif.Props.AmbeFinite
import Verif.Props.AmbeTrack
import Verif.Props.Inaudible
import Verif.Props.Distinct
import Verif.Spec.VoicedAcc
import Verif.Lemmas.VoicedAcc
import Verif.Lemmas.VoicedGlide
import Verif.Lemmas.VoicedBand
import Verif.Lemmas.VoicedFrame
import Verif.Lemmas.VoicedOut
import Verif.Props.VoicedAcc
import Verif.Spec.UnvoicedAcc
import Verif.Lemmas.UnvoicedAcc
import Verif.Lemmas.UnvoicedBlock
import Verif.Props.UnvoicedAcc
import Verif.Spec.EnhanceAcc
import Verif.Lemmas.EnhAcc
import Verif.Lemmas.EnhCos
import Verif.Lemmas.EnhWeight
import Verif.Lemmas.EnhRoot
import Verif.Lemmas.EnhOut
import Verif.Lemmas.EnhFrame
import Verif.Lemmas.EnhEnergy
import Verif.Lemmas.EnhNear
import Verif.Lemmas.EnhLoud
import Verif.Lemmas.EnhWith
import Verif.Props.EnhanceAcc
import Verif.Lemmas.Prec
import Verif.Spec.SmoothAcc
import Verif.Lemmas.SmoothAcc
import Verif.Lemmas.SmoothVm
import Verif.Props.SmoothAcc
import Verif.Spec.Played
import Verif.Lemmas.Played
import Verif.Props.Played
import Verif.Lemmas.VoicedSimd
import Verif.Lemmas.UnvoicedSimd
import Verif.Props.SimdAcc
import Verif.Lemmas.EnhSimdSum
import Verif.Props.EnhanceSimd
import Verif.Spec.Builds
import Verif.Lemmas.Builds
import Verif.Lemmas.BuildsSpeak
import Verif.Lemmas.BuildsProcess
import Verif.Props.Builds
import Verif.Props.BuildsAcc
import Verif.Spec.PlayedAmbe
import Verif.Lemmas.AmbePlay
import Verif.Props.PlayedAmbe
import Verif.Spec.SimdHist
import Verif.Lemmas.SimdSpeak
import Verif.Lemmas.SimdHist
import Verif.Props.SimdHist
