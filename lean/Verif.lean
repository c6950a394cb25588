import Verif.Props.Utils
import Verif.Props.RingBuf
import Verif.Props.Log
import Verif.Props.Dma
import Verif.Props.KeyId
import Verif.Props.FlashUnit
import Verif.Props.NvmFlash
import Verif.Props.NvmFlashWitness
import Verif.Props.Nvm
import Verif.Props.Counter
import Verif.Props.Keystore
import Verif.Props.KeystorePersist
import Verif.Props.KeystoreSecret
import Verif.Props.KeystoreWitness
import Verif.Props.Comm
import Verif.Props.TransportMem
import Verif.Props.Auth
import Verif.Props.AuthWitness
import Verif.Props.Server
import Verif.Props.FlashLog
import Verif.Props.FlashLogWitness
import Verif.Props.She
import Verif.Props.SheBoot
import Verif.Props.SheWitness
import Verif.Props.SheMsg
import Verif.Props.NvmMsg
import Verif.Props.ImgMgr
import Verif.Props.Cert
import Verif.Props.Lock
import Verif.Props.StatefulSig
import Verif.Props.ImgVerify
import Verif.Props.NvmRefine
import Verif.Props.KeystoreStory
import Verif.Props.KeystoreFlash
import Verif.Props.Crypto
import Verif.Props.CryptoKeys
import Verif.Props.CryptoWitness
import Verif.Props.Kdf
import Verif.Props.KeyMsg
import Verif.Props.SmallMsg
import Verif.Props.CertMsg
import Verif.Props.CryptoMsg
import Verif.Props.ClientHash
import Verif.Props.ClientHashDma
import Verif.Props.ClientDma
import Verif.Props.ClientStream
import Verif.Props.ClientCrypto
import Verif.Props.ClientShe
import Verif.Props.Device
import Verif.Props.DeviceDma
import Verif.Props.CryptoDma
import Verif.Props.CryptoDmaSig
import Verif.Props.Tcp
import Verif.Props.FlashFile
import Verif.Props.PosixShm
import Verif.Props.FlashFileWitness
import Verif.Props.Stack
import Verif.Props.Tls
import Verif.Props.Nsc
import Verif.Props.HwKeystore
import Verif.Props.Locks
import Verif.Props.LogPrintf
import Verif.Props.AuthThreads
