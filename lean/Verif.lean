import Verif.Props.C01_C02
import Verif.Props.C03_C04
import Verif.Props.C05_C07
import Verif.Props.C08
import Verif.Props.C09_C10
import Verif.Props.C11
import Verif.Props.C12
import Verif.Props.C13
import Verif.Props.C14_C15
import Verif.Props.C16_C17
import Verif.Props.C18_C19
import Verif.Props.C20
import Verif.Props.C20Last
import Verif.Props.C51
import Verif.Props.C16Exact
import Verif.Props.C52
import Verif.Props.C21_C23
import Verif.Props.C21Checkpoints
import Verif.Props.C24_C28
import Verif.Props.C24Ops
import Verif.Props.C29
import Verif.Props.C30_C32
import Verif.Props.C30Pruned
import Verif.Props.C33
import Verif.Props.C34_C36
import Verif.Props.C34Params
import Verif.Props.C37
import Verif.Props.C38
import Verif.Props.C39
import Verif.Props.C39Exact
import Verif.Props.C40
import Verif.Props.C40Exact
import Verif.Props.C53
import Verif.Props.C41_C43
import Verif.Props.C43Jamo
import Verif.Props.C44
import Verif.Props.C44Exact
import Verif.Props.C45
import Verif.Props.C47
import Verif.Props.C46
import Verif.Props.C46Fallback
import Verif.Props.C46Few
import Verif.Props.C48
import Verif.Props.C49
import Verif.Props.C54
import Verif.Props.C54Nouns
import Verif.Props.C54Sent
import Verif.Props.C55
import Verif.Props.C50
import Verif.Props.C56
import Verif.Props.C57
import Verif.Props.C58
import Verif.Props.C59
import Verif.Props.C60
import Verif.Props.C61
import Verif.Props.C62
import Verif.Props.C63
import Verif.Props.C22Load
import Verif.Props.C64
import Verif.Props.C64History
import Verif.Props.C65
import Verif.Props.C66
import Verif.Props.C67
import Verif.Props.C68
import Verif.Props.C69
import Verif.Props.C70
import Verif.Props.C71
import Verif.Props.C72
import Verif.Props.C73
import Verif.Props.C74
import Verif.Props.C70Exact
import Verif.Props.C75_C76
import Verif.Props.C77
import Verif.Props.C78
import Verif.Props.C79
import Verif.Props.C80
import Verif.Props.C81
import Verif.Props.C82
import Verif.Props.C83
import Verif.Props.C84
import Verif.Props.C85
import Verif.Props.C86
import Verif.Props.C87
import Verif.Props.C88
import Verif.Props.C89
import Verif.Props.C90
import Verif.Props.C91
import Verif.Props.C92
import Verif.Props.C92Shared
import Verif.Props.C93
import Verif.Props.C94
import Verif.Props.C95
import Verif.Props.C96
import Verif.Props.C97
import Verif.Props.C98
import Verif.Props.C99
import Verif.Props.C100
import Verif.Props.C101
import Verif.Props.C102
import Verif.Props.C102V2
import Verif.Props.C102Words
import Verif.Props.C102Pred
import Verif.Props.C102Orders
import Verif.Props.C103
import Verif.Props.C103V2
import Verif.Props.C104
import Verif.Props.C105
import Verif.Props.C106
import Verif.Props.C107
import Verif.Props.C108
import Verif.Props.C109
import Verif.Props.C110
import Verif.Props.C111
import Verif.Props.C112
import Verif.Props.C112Regex
import Verif.Props.C113
import Verif.Props.C114
import Verif.Props.C115
import Verif.Props.C115Tagger
import Verif.Props.C116
import Verif.Props.C116Graph
import Verif.Props.C117
import Verif.Props.C118
import Verif.Props.C118Counts
import Verif.Props.C119
import Verif.Props.C120
import Verif.Props.C121
import Verif.Model.ScoreHeap
import Verif.Props.C122
import Verif.Props.C123
import Verif.Props.C123Train
