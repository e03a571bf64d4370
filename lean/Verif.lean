import Verif.Props.C01
import Verif.Props.C02
import Verif.Props.C03
import Verif.Props.C04
import Verif.Props.C05
import Verif.Props.C06
import Verif.Props.C07
import Verif.Props.C08
import Verif.Props.C09
import Verif.Props.C10
import Verif.Props.C11
import Verif.Props.C12
import Verif.Props.C13
import Verif.Props.C14
import Verif.Props.C15
import Verif.Props.C16
import Verif.Props.C17
import Verif.Props.C18
import Verif.Props.C19
import Verif.Props.C20
import Verif.Props.C21
import Verif.Props.C22
import Verif.Props.C23
import Verif.Props.C24
import Verif.Props.C25
import Verif.Props.C26
import Verif.Props.C29
import Verif.Props.C31
import Verif.Props.C32
import Verif.Props.C33
import Verif.Props.C36
import Verif.Props.C37
import Verif.Props.C43
import Verif.Props.C44
import Verif.Props.C38
import Verif.Props.C39
import Verif.Props.C40
import Verif.Props.C42
import Verif.Props.C27
import Verif.Props.C28
import Verif.Props.C30
import Verif.Props.C41
import Verif.Props.C34
import Verif.Props.C35
import Verif.Props.C45
import Verif.Props.C46
import Verif.Props.C47
import Verif.Props.C48
import Verif.Props.C49
import Verif.Props.C50
import Verif.Props.C51
import Verif.Props.C52
import Verif.Props.C53
import Verif.Props.C54
import Verif.Props.C55
import Verif.Props.C56
import Verif.Props.C57
import Verif.Props.C58
import Verif.Props.C59
import Verif.Props.C60
import Verif.Props.C61
import Verif.Props.C61b
import Verif.Props.C61c
import Verif.Props.C61d
import Verif.Props.C61e
import Verif.Props.C61f
import Verif.Props.C62
import Verif.Model.Formatting
import Verif.Spec.Layout
import Verif.Lemmas.May
import Verif.Props.C62b
import Verif.Props.C62c
import Verif.Props.C62d
import Verif.Props.C62e
import Verif.Props.C62f
import Verif.Props.C62g
import Verif.Props.C63
import Verif.Model.Conditional
import Verif.Spec.Conditional
import Verif.Props.C63b
import Verif.Props.C63c
import Verif.Props.C63d
import Verif.Props.C63e
import Verif.Props.C64
import Verif.Model.Preprocess
import Verif.Spec.Preprocess
import Verif.Props.C64b
import Verif.Props.C64c
import Verif.Props.C64d
import Verif.Props.C64e
import Verif.Props.C64f
import Verif.Props.C64g
import Verif.Props.C64h
import Verif.Props.C64i
import Verif.Props.C64j
import Verif.Props.C64k
import Verif.Props.C64l
import Verif.Props.C64m
import Verif.Props.C64n
import Verif.Props.C65
import Verif.Model.Parser
import Verif.Props.C65b
import Verif.Props.C65c
import Verif.Props.C65d
import Verif.Props.C65e
import Verif.Props.C65f
import Verif.Props.C65g
import Verif.Props.C65h
import Verif.Props.C65i
import Verif.Props.C65j
import Verif.Props.C65k
import Verif.Props.C65l
import Verif.Props.C65m
import Verif.Props.C65n
import Verif.Props.C65o
import Verif.Props.C65p
import Verif.Props.C65q
import Verif.Props.C65r
import Verif.Props.C65s
import Verif.Props.C65t
import Verif.Props.C65u
import Verif.Props.C65v
import Verif.Props.C65w
import Verif.Props.C66
import Verif.Props.C67
import Verif.Props.C68
import Verif.Props.C69
import Verif.Props.C70
import Verif.Props.C71
import Verif.Props.C72
import Verif.Props.C72b
import Verif.Props.C73
import Verif.Props.C74
import Verif.Props.C75
