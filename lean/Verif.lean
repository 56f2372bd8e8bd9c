import Verif.Crc.Props
import Verif.Spi.Props66
import Verif.I2c.Props70
import Verif.TL4.Props
import Verif.TL4.PropsSend
import Verif.TL4.EndToEnd
import Verif.Boot.Props
import Verif.Boot.PropsProgram
import Verif.Boot.PropsDecomp
import Verif.Boot.PropsStart
import Verif.Boot.PropsBlUpdater
import Verif.Util.TimeProps
import Verif.Util.Dpt9Props
import Verif.Util.BytesProps
import Verif.Util.RtcProps
import Verif.Util.TextProps
import Verif.Util.SerialProps
import Verif.Com.PropsObj
import Verif.Com.PropsGroup
import Verif.Com.PropsRate
import Verif.Bus.PropsRx
import Verif.Bus.PropsChar
import Verif.Bus.PropsTx
import Verif.Eeprom.Props
import Verif.Eeprom.Loop
import Verif.MemMap.Words
import Verif.Dev.Props22
import Verif.Dev.Props22Map
import Verif.Dev.Props23
import Verif.Dev.Props24
import Verif.Dev.Props25
import Verif.Dev.Props26
import Verif.Dev.Compose
import Verif.Dev.Loop
import Verif.Dev.LoopSpec
import Verif.Dev.LoopLemmas
import Verif.Dev.Props62
import Verif.Dev.Props63
import Verif.Dev.Props67
import Verif.Dev.Props68
import Verif.Dev.Begin
import Verif.Dev.Props69
import Verif.Wire.Props46
import Verif.Wire.Props50
import Verif.Bus.PropsArmed
import Verif.TL4.PropsGiveUp
import Verif.Wire.Sensor
import Verif.Wire.Props60
import Verif.Wire.Props61
import Verif.Com.Props64
import Verif.I2c.Sensors
import Verif.I2c.Props71
import Verif.Timer.Model
import Verif.Timer.Props72
import Verif.Timer.Props73
import Verif.Pin.Model
import Verif.Pin.Spec
import Verif.Pin.Props74
import Verif.Pin.Pulse
import Verif.Pin.Props75
import Verif.Wire.Bits
import Verif.Wire.Props76
import Verif.Util.Uart
import Verif.Util.UartProps
import Verif.Pin.Analog
import Verif.Pin.Props78
import Verif.Util.Arrays
import Verif.Boot.DiffTool
import Verif.Boot.DiffToolLemmas
import Verif.Boot.PropsTool
import Verif.Boot.FullTool
import Verif.Boot.FullToolLemmas
import Verif.Boot.PropsFullTool
import Verif.Boot.Hex
import Verif.Boot.HexSpec
import Verif.Boot.HexLemmas
import Verif.Boot.PropsHex
import Verif.Boot.PropsDump
import Verif.Bus.ArbSpec
import Verif.Bus.ArbLemmas
import Verif.Bus.PropsArb
import Verif.Bus.LinkSpec
import Verif.Bus.LinkLemmas
import Verif.Bus.PropsLink
import Verif.Com.PropsEnd
import Verif.Boot.PropsHandover
import Verif.Dev.SpecDownload
import Verif.Dev.Props88
import Verif.I2c.Slave
import Verif.I2c.SpecSlave
import Verif.I2c.SlaveLemmas
import Verif.I2c.PropsSlave
import Verif.Wire.Bridge
import Verif.Wire.SpecBridge
import Verif.Wire.Props90
import Verif.Com.PropsRead
import Verif.Bus.PropsTime
import Verif.Bus.PropsAccess
import Verif.Gas.Typical
import Verif.Gas.Learn
import Verif.Lcd.Props
import Verif.Sht.Props
import Verif.Sht.Num
import Verif.Util.PrintFloatProps
import Verif.Gas.Nearest
import Verif.Gas.Sgp4x
import Verif.Gas.Sgp4xProps
import Verif.Com.InStep
import Verif.Bus.SharedLive
import Verif.Bus.SharedAccess
import Verif.Sht.DewFindings
import Verif.Dev.Props106
import Verif.MemMap.Mapped
import Verif.Boot.PropsTelegram
import Verif.Boot.PropsOverBus
import Verif.TL4.Dialogue
import Verif.TL4.PropsDialogue
import Verif.Dev.OverBus
import Verif.Boot.PropsConfirmed
import Verif.TL4.Progress
import Verif.TL4.PropsProgress
import Verif.Boot.PropsCompletes
import Verif.I2c.Ccs811
import Verif.I2c.PropsCcs
import Verif.Dev.Spec112
import Verif.Dev.Props112
import Verif.Flash.Size
import Verif.Flash.PropsSize
import Verif.Pin.Fatal
import Verif.Pin.PropsFatal
import Verif.Boot.Startup
import Verif.Boot.PropsStartup
import Verif.U8g.Model
import Verif.U8g.Spec
import Verif.U8g.Paint
import Verif.U8g.Figures
import Verif.U8g.Pages
import Verif.U8g.Props116
import Verif.U8g.Line
import Verif.U8g.Props117
import Verif.U8g.Circle
import Verif.U8g.Props118
import Verif.U8g.Rounded
import Verif.U8g.Props119
import Verif.U8g.TextSpec
import Verif.U8g.TextLemmas
import Verif.U8g.TextDraw
import Verif.U8g.Xbm
import Verif.U8g.Props120
import Verif.U8g.Props121
import Verif.Log.Spec
import Verif.Log.Model
import Verif.Log.Lemmas
import Verif.Log.Raw
import Verif.Log.Parse
import Verif.Log.Props122
import Verif.Bus.PropsSpike
import Verif.Bus.PropsPause
import Verif.Util.StreamTime
import Verif.Util.StreamTimeProps
import Verif.Boot.PropsInfo
import Verif.Util.RtcEpoch
import Verif.Knx.Header
import Verif.Dev.HwType
import Verif.Dev.Region
import Verif.Sht.Sht4x
